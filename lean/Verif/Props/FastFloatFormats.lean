import Verif.Props.FFParseOpts
/-
Properties of `fast_float::from_chars_advanced` with its options: which texts are numbers in which format.
-/
namespace C4
open Spec FF

theorem numExp_inj {F : NumFormat} {x y : Option (Option Nat × Option Nat × List Nat)} (hx : Num.ExpWF F x) (hy : Num.ExpWF F y)
    (h : Num.expText x = Num.expText y) : x = y := by
  have nonempty : ∀ {v : Option Nat × Option Nat × List Nat}, Num.ExpWF F (some v) → Num.expText (some v) ≠ [] := by
    intro v hv he
    obtain ⟨l, sg, ds⟩ := v
    unfold Num.expText at he
    rw [List.append_eq_nil_iff, List.append_eq_nil_iff] at he
    exact (hv _ _ _ rfl).2.2.1 he.2.2
  cases x with
  | none => cases y with
    | none => rfl
    | some v => exact absurd h.symm (nonempty hy)
  | some v => cases y with
    | none => exact absurd h (nonempty hx)
    | some w =>
      obtain ⟨l, sg, ds⟩ := v
      obtain ⟨l', sg', ds'⟩ := w
      obtain ⟨hl, hs, hn, hd⟩ := hx _ _ _ rfl
      obtain ⟨hl', hs', hn', hd'⟩ := hy _ _ _ rfl
      have letter : ∀ {l sg : Option Nat}, Num.IsLetter F l sg → (∃ z, l = some z ∧ (z = 101 ∨ z = 69 ∨ z = 100 ∨ z = 68)) ∨ (l = none ∧ sg ≠ none) := by
        intro l sg h
        rcases h with ⟨-, rfl | rfl⟩ | ⟨-, rfl | rfl | ⟨rfl, hsn⟩⟩
        · exact Or.inl ⟨_, rfl, by simp⟩
        · exact Or.inl ⟨_, rfl, by simp⟩
        · exact Or.inl ⟨_, rfl, by simp⟩
        · exact Or.inl ⟨_, rfl, by simp⟩
        · exact Or.inr ⟨rfl, hsn⟩
      have sign : ∀ {sg sg' : Option Nat} {ds ds' : List Nat}, (sg = none ∨ sg = some 43 ∨ sg = some 45) → (sg' = none ∨ sg' = some 43 ∨ sg' = some 45) →
          (∀ c ∈ ds, IsDigit c) → (∀ c ∈ ds', IsDigit c) → sg.toList ++ ds = sg'.toList ++ ds' → sg = sg' ∧ ds = ds' := by
        have mix : ∀ {z : Nat} {ds ds' : List Nat}, (z = 43 ∨ z = 45) → (∀ c ∈ ds, IsDigit c) → z :: ds' ≠ ds := by
          intro z ds ds' hz hds heq
          have := hds z (by rw [← heq]; exact List.mem_cons_self)
          unfold IsDigit at this
          omega
        intro sg sg' ds ds' hs hs' hd hd' h
        cases sg with
        | none => cases sg' with
          | none => exact ⟨rfl, h⟩
          | some z' => exact absurd h.symm (mix (by simpa using hs') hd)
        | some z => cases sg' with
          | none => exact absurd h (mix (by simpa using hs) hd')
          | some z' => simp at h; rw [h.1, h.2]; exact ⟨rfl, rfl⟩
      unfold Num.expText at h
      have clash : ∀ {z : Nat} {r : List Nat} {sg : Option Nat} {ds : List Nat}, (z = 101 ∨ z = 69 ∨ z = 100 ∨ z = 68) → sg ≠ none →
          (sg = none ∨ sg = some 43 ∨ sg = some 45) → z :: r ≠ sg.toList ++ ds := by
        intro z r sg ds hz hsn hs heq
        rcases hs with rfl | rfl | rfl
        · exact hsn rfl
        · simp at heq; omega
        · simp at heq; omega
      rcases letter hl with ⟨z, rfl, hz⟩ | ⟨rfl, hsn⟩ <;> rcases letter hl' with ⟨z', rfl, hz'⟩ | ⟨rfl, hsn'⟩
      · simp only [Option.toList_some, List.cons_append, List.nil_append, List.cons.injEq] at h
        obtain ⟨rfl, h⟩ := h
        obtain ⟨rfl, rfl⟩ := sign hs hs' hd hd' h
        rfl
      · exact (clash hz hsn' hs' (by simpa using h)).elim
      · exact (clash hz' hsn hs (by simpa using h.symm)).elim
      · obtain ⟨rfl, rfl⟩ := sign hs hs' hd hd' h
        rfl

/-- A text is the text of one number only. -/
theorem num_inj {F : NumFormat} (hdp : IsPoint F.point) {t u : Num} (ht : t.WF F) (hu : u.WF F) (h : t.text F.point = u.text F.point) : t = u := by
  have hnp : ¬ isInteger F.point = true := fun h => hdp.1 ((isInteger_iff _).1 h)
  have split : ∀ t : Num, t.WF F → (t.int ++ (Num.fracText F.point t.frac ++ Num.expText t.exp)).takeWhile isInteger = t.int ∧
      fracOfO F.point ((t.int ++ (Num.fracText F.point t.frac ++ Num.expText t.exp)).dropWhile isInteger) = t.frac ∧
      afterFracO F.point ((t.int ++ (Num.fracText F.point t.frac ++ Num.expText t.exp)).dropWhile isInteger) = Num.expText t.exp ∧
      ∃ c s, t.int ++ (Num.fracText F.point t.frac ++ Num.expText t.exp) = c :: s ∧ c ≠ 45 := by
    intro t ht
    have hexp : (Num.expText t.exp).takeWhile isInteger = [] ∧ (Num.expText t.exp).dropWhile isInteger = Num.expText t.exp ∧
        fracOfO F.point (Num.expText t.exp) = none ∧ afterFracO F.point (Num.expText t.exp) = Num.expText t.exp := by
      cases he : Num.expText t.exp with
      | nil => exact ⟨rfl, rfl, rfl, rfl⟩
      | cons c s =>
        obtain ⟨h1, h2⟩ := letter_not_digit ht.exp he
        have hc : ¬ isInteger c = true := fun h => h1 ((isInteger_iff _).1 h)
        have hcp : c ≠ F.point := by
          have := hdp
          unfold IsPoint at this
          omega
        refine ⟨List.takeWhile_cons_of_neg hc, List.dropWhile_cons_of_neg hc, ?_, ?_⟩
        · rw [fracOfO, if_neg hcp]
        · rw [afterFracO, if_neg hcp]
    have hfr : (Num.fracText F.point t.frac ++ Num.expText t.exp).takeWhile isInteger = [] ∧
        (Num.fracText F.point t.frac ++ Num.expText t.exp).dropWhile isInteger = Num.fracText F.point t.frac ++ Num.expText t.exp ∧
        fracOfO F.point (Num.fracText F.point t.frac ++ Num.expText t.exp) = t.frac ∧
        afterFracO F.point (Num.fracText F.point t.frac ++ Num.expText t.exp) = Num.expText t.exp := by
      cases hf : t.frac with
      | none => exact hexp
      | some f =>
        obtain ⟨h1, h2⟩ := takeWhile_app f (Num.expText t.exp) (fun c hc => ht.digits c (by simp [Num.digits, hf, hc])) ⟨hexp.1, hexp.2.1⟩
        simp only [Num.fracText, List.cons_append, List.takeWhile_cons_of_neg hnp, List.dropWhile_cons_of_neg hnp, fracOfO, afterFracO, if_true, h1, h2, and_self]
    obtain ⟨i1, i2⟩ := takeWhile_app t.int _ (fun c hc => ht.digits c (List.mem_append_left _ hc)) ⟨hfr.1, hfr.2.1⟩
    refine ⟨i1, by rw [i2]; exact hfr.2.2.1, by rw [i2]; exact hfr.2.2.2, ?_⟩
    obtain ⟨d, s, hds, hd⟩ := num_head ht F.point (Num.expText t.exp)
    refine ⟨d, s, hds, ?_⟩
    have := hdp
    unfold IsPoint at this
    unfold IsDigit at hd
    omega
  obtain ⟨t1, t2, t3, c, s, t4, t5⟩ := split t ht
  obtain ⟨u1, u2, u3, d, r, u4, u5⟩ := split u hu
  unfold Num.text at h
  have hneg : t.neg = u.neg ∧ t.int ++ (Num.fracText F.point t.frac ++ Num.expText t.exp) = u.int ++ (Num.fracText F.point u.frac ++ Num.expText u.exp) := by
    cases hn : t.neg <;> cases hm : u.neg <;> simp only [hn, hm, minus, if_true, if_false, List.nil_append, Bool.false_eq_true] at h
    · exact ⟨rfl, h⟩
    · rw [t4] at h
      simp only [List.cons_append, List.cons.injEq] at h
      exact absurd h.1 t5
    · rw [u4] at h
      simp only [List.cons_append, List.cons.injEq] at h
      exact absurd h.1.symm u5
    · exact ⟨rfl, List.append_cancel_left h⟩
  obtain ⟨hneg, hbody⟩ := hneg
  rw [hbody] at t1 t2 t3
  cases t
  cases u
  simp only [Num.mk.injEq]
  exact ⟨hneg, t1.symm.trans u1, t2.symm.trans u2, numExp_inj ht.exp hu.exp (t3.symm.trans u3)⟩

theorem plain_wf {F : NumFormat} {t : Num} (ht : t.WF F) : t.plain.WF := by
  refine ⟨ht.digits, ht.nonempty, ?_⟩
  intro e sg ds h
  unfold Num.plain at h
  dsimp only at h
  cases hx : t.exp with
  | none => rw [hx] at h; cases h
  | some v =>
    rw [hx] at h
    obtain ⟨l, sg', ds'⟩ := v
    cases h
    obtain ⟨-, h2, h3, h4⟩ := ht.exp _ _ _ hx
    exact ⟨Or.inl rfl, h2, h3, h4⟩

theorem plain_bytes {F : NumFormat} {t : Num} (ht : t.WF F) : ∀ c ∈ t.plain.text, c < 256 := by
  have hp := plain_wf ht
  have hd : ∀ c ∈ t.plain.digits, c < 256 := fun c hc => by have := hp.digits c hc; unfold IsDigit at this; omega
  intro c hc
  unfold Decimal.text at hc
  rw [List.mem_append, List.mem_append, List.mem_append] at hc
  rcases hc with hc | hc | hc | hc
  · split at hc
    · simp at hc; omega
    · cases hc
  · exact hd c (List.mem_append_left _ hc)
  · cases hf : t.plain.frac with
    | none => rw [hf] at hc; cases hc
    | some f =>
      rw [hf] at hc
      rcases List.mem_cons.1 hc with rfl | hc
      · omega
      · exact hd c (by unfold Decimal.digits; rw [hf]; exact List.mem_append_right _ hc)
  · cases hx : t.plain.exp with
    | none => rw [hx] at hc; cases hc
    | some v =>
      obtain ⟨e, sg, ds⟩ := v
      obtain ⟨h1, h2, -, h4⟩ := hp.exp _ _ _ hx
      rw [hx] at hc
      unfold Decimal.expText at hc
      rcases List.mem_cons.1 hc with rfl | hc
      · omega
      · rcases List.mem_append.1 hc with hc | hc
        · rcases h2 with rfl | rfl | rfl
          · cases hc
          · simp at hc; omega
          · simp at hc; omega
        · have := h4 c hc; unfold IsDigit at this; omega

/-- What is read, in terms of the longest prefix that is a number. -/
theorem parseO_longest (o : ParseOptions) (hdp : IsPoint o.decimalPoint)
    (hfo : (fmtOf o).scientific = true ∨ (fmtOf o).fixed = true ∨ (fmtOf o).fortran = false) {s : List Nat} {t : Num} {rest : List Nat}
    (h : LongestIn (fmtOf o) s t rest) (hb : ∀ c ∈ s, c < 256) :
    ∃ a, parseNumberStringO o s = .ok a ∧
        ((hasFlag o.format fmtJsonBit = true ∧ ¬ t.Json ∧ a.valid = false) ∨ ((hasFlag o.format fmtJsonBit = true → t.Json) ∧ Parsed a t.plain rest)) := by
  obtain ⟨u, r, h1, h2, h3, a, h4, h5⟩ := parseO_read o hdp hfo t h.wf rest s h.split hb
  have hl := h.longest u r h1 h2
  have he : t.text o.decimalPoint = u.text o.decimalPoint ∧ rest = r := List.append_inj' (h.split.symm.trans h2) (by omega)
  have htu := num_inj hdp h.wf h1 he.1
  rw [htu, he.2]
  exact ⟨a, h4, h5⟩

/-- C146: in every format with every decimal point, the longest prefix of the text that is a number in the format is read as the general format reads the same
number written with '.' and the letter e; `ptr` points behind it.  With the JSON formats it has to be a number of JSON.  (An exponent may be missing, or be
written with a letter, or exponents are not written as in Fortran: all values of `chars_format` are such.) -/
theorem C146_read {f : Fmt} {F : Ieee} (hf : (f = dbl ∧ F = binary64) ∨ (f = flt ∧ F = binary32)) (fpu : Fpu) (o : ParseOptions) (hdp : IsPoint o.decimalPoint)
    (hfo : (fmtOf o).scientific = true ∨ (fmtOf o).fixed = true ∨ (fmtOf o).fortran = false) (s : List Nat) (t : Num) (rest : List Nat)
    (h : LongestIn (fmtOf o) s t rest) (hb : ∀ c ∈ s, c < 256) (hj : hasFlag o.format fmtJsonBit = true → t.Json) :
    ∃ ec v, fromChars f fpu t.plain.text = .ok ⟨[], ec, v⟩ ∧ fromCharsAdvanced f fpu o s = .ok ⟨rest, ec, v⟩ := by
  obtain ⟨a, h1, h2⟩ := parseO_longest o hdp hfo h hb
  have h2 : Parsed a t.plain rest := by
    rcases h2 with ⟨j1, j2, -⟩ | ⟨-, h⟩
    · exact absurd (hj j1) j2
    · exact h
  have hL : Longest t.plain.text t.plain [] := ⟨plain_wf h.wf, (List.append_nil _).symm, fun _ _ _ _ => Nat.zero_le _⟩
  obtain ⟨b, b1, b2⟩ := fromChars_read hf fpu hL (plain_bytes h.wf)
  obtain ⟨b', b1', b2'⟩ := fromCharsPns_spec hf fpu (h2.handed (plain_wf h.wf))
  have e : a.integer ++ a.fraction.getD [] = t.plain.digits := by rw [h2.integer, h2.fraction]; rfl
  rw [e] at b1'
  simp only [e] at b2'
  have hbb := nearest_unique F b1 b1'
  refine ⟨_, _, b2, ?_⟩
  have hne : s ≠ [] := by
    rintro rfl
    cases h1
  unfold fromCharsAdvanced
  rw [if_neg hne, h1]
  dsimp only
  rw [if_pos h2.valid, b2', h2.rest, h2.negative, hbb]

/-- C146: with the JSON formats, a text is refused if its longest prefix that is a number is not one of JSON. -/
theorem C146_json (f : Fmt) (fpu : Fpu) (o : ParseOptions) (hdp : IsPoint o.decimalPoint)
    (hfo : (fmtOf o).scientific = true ∨ (fmtOf o).fixed = true ∨ (fmtOf o).fortran = false) (s : List Nat) (t : Num) (rest : List Nat)
    (h : LongestIn (fmtOf o) s t rest) (hb : ∀ c ∈ s, c < 256) (hjb : hasFlag o.format fmtJsonBit = true) (hj : ¬ t.Json) :
    fromCharsAdvanced f fpu o s = .ok ⟨s, .invalidArgument, none⟩ := by
  obtain ⟨a, h1, h2⟩ := parseO_longest o hdp hfo h hb
  have hv : a.valid = false := by
    rcases h2 with ⟨-, -, h⟩ | ⟨h, -⟩
    · exact h
    · exact absurd (h hjb) hj
  have hne : s ≠ [] := by
    rintro rfl
    cases h1
  unfold fromCharsAdvanced
  rw [if_neg hne, h1]
  dsimp only
  rw [hv]
  simp only [Bool.false_eq_true, if_false]
  split
  · rfl
  · obtain ⟨d, q, hds, hd⟩ := num_head h.wf o.decimalPoint (Num.expText t.exp ++ rest)
    have hlet : ¬ (97 ≤ d ∧ d ≤ 122) ∧ ¬ (65 ≤ d ∧ d ≤ 90) ∧ d ≠ 45 := by
      have := hdp
      unfold IsPoint at this
      unfold IsDigit at hd
      omega
    have hs : s = minus t.neg ++ d :: q := by
      rw [h.split, ← hds]
      simp [Num.text, fmtOf, List.append_assoc]
    rw [hs, parseInfnan_minus f t.neg d q hlet.2.2]
    dsimp only
    split
    · rename_i hl
      have hlen : ((d :: q).take 3).length = 3 := by rw [List.length_take, Nat.min_eq_left hl]
      rw [if_neg, if_neg]
      · rw [strncasecmp_iff (S "inf") _ (by decide) (by rw [hlen]; decide)]
        intro hh
        have : d = 105 ∨ d + 32 = 105 := (List.forall₂_cons.1 hh).1
        omega
      · rw [strncasecmp_iff (S "nan") _ (by decide) (by rw [hlen]; decide)]
        intro hh
        have : d = 110 ∨ d + 32 = 110 := (List.forall₂_cons.1 hh).1
        omega
    · rfl

theorem advanced_none (f : Fmt) (fpu : Fpu) (o : ParseOptions) (hdp : ¬ IsDigit o.decimalPoint) (s : List Nat) (hne : s ≠ []) (h : NoNumberIn (fmtOf o) s)
    (hb : ∀ c ∈ s, c < 256) :
    fromCharsAdvanced f fpu o s = if hasFlag o.format fmtNoInfnan then .ok ⟨s, .invalidArgument, none⟩ else parseInfnan f s := by
  have hok : ∃ a, parseNumberStringO o s = .ok a := by
    cases s with
    | nil => exact absurd rfl hne
    | cons c s =>
      unfold parseNumberStringO
      dsimp only
      split
      · cases s with
        | nil => exact ⟨_, rfl⟩
        | cons d s =>
          dsimp only
          split
          · split <;> exact ⟨_, rfl⟩
          · split <;> exact ⟨_, rfl⟩
      · exact ⟨_, rfl⟩
  obtain ⟨a, ha⟩ := hok
  have hv : a.valid = false := by
    cases hv : a.valid with
    | false => rfl
    | true =>
      obtain ⟨t, ht, r, hs⟩ := parseO_valid o hdp s hb a ha hv
      exact absurd hs (h t r ht)
  unfold fromCharsAdvanced
  rw [if_neg hne, ha]
  dsimp only
  rw [hv]
  simp only [Bool.false_eq_true, if_false]

theorem parseInfnan_refused (f : Fmt) (c : Nat) (r : List Nat)
    (h2 : ¬ ∃ neg w r', c :: r = minus neg ++ (w ++ r') ∧ (SameWord w wordNan ∨ SameWord w wordInf)) :
    parseInfnan f (c :: r) = .ok ⟨c :: r, .invalidArgument, none⟩ := by
  unfold parseInfnan
  dsimp only
  obtain ⟨s', hs'⟩ : ∃ s', (if (c == 45) = true then r else c :: r) = s' := ⟨_, rfl⟩
  obtain ⟨neg, hneg⟩ : ∃ neg, (c == 45) = neg := ⟨_, rfl⟩
  have hsplit : c :: r = minus neg ++ s' := by
    cases neg
    · rw [← hs', hneg]; rfl
    · rw [← hs', hneg, beq_iff_eq.1 hneg]; rfl
  rw [hs']
  split
  · rename_i hl
    have hlen : (s'.take 3).length = 3 := by rw [List.length_take, Nat.min_eq_left hl]
    rw [if_neg, if_neg]
    · rw [strncasecmp_iff (S "inf") _ (by decide) (by rw [hlen]; decide)]
      intro hw
      exact h2 ⟨neg, s'.take 3, s'.drop 3, by rw [List.take_append_drop, hsplit], Or.inr hw⟩
    · rw [strncasecmp_iff (S "nan") _ (by decide) (by rw [hlen]; decide)]
      intro hw
      exact h2 ⟨neg, s'.take 3, s'.drop 3, by rw [List.take_append_drop, hsplit], Or.inl hw⟩
  · rfl

/-- C146: if no prefix is a number in the format, then the words for NaN and infinity are read as in the general format, unless the format forbids them, and
any other text is refused. -/
theorem C146_none (f : Fmt) (fpu : Fpu) (o : ParseOptions) (hdp : IsPoint o.decimalPoint) (s : List Nat) (h : NoNumberIn (fmtOf o) s) (hb : ∀ c ∈ s, c < 256) :
    (hasFlag o.format fmtNoInfnan = false → (∃ neg w r, s = minus neg ++ (w ++ r) ∧ (SameWord w wordNan ∨ SameWord w wordInf)) →
      fromCharsAdvanced f fpu o s = fromChars f fpu s) ∧
    (hasFlag o.format fmtNoInfnan = true ∨ (¬ ∃ neg w r, s = minus neg ++ (w ++ r) ∧ (SameWord w wordNan ∨ SameWord w wordInf)) →
      fromCharsAdvanced f fpu o s = .ok ⟨s, .invalidArgument, none⟩) := by
  by_cases hne : s = []
  · unfold fromCharsAdvanced fromChars
    simp [hne]
  rw [advanced_none f fpu o hdp.1 s hne h hb]
  constructor
  · rintro hi ⟨neg, w, r, hs, hw⟩
    rw [hi]
    have hw3 : ∃ c w', w = c :: w' ∧ 65 ≤ c := by
      rcases hw with hw | hw
      · cases w with
        | nil => cases hw
        | cons c w' => exact ⟨c, w', rfl, by have := (List.forall₂_cons.1 hw).1; omega⟩
      · cases w with
        | nil => cases hw
        | cons c w' => exact ⟨c, w', rfl, by have := (List.forall₂_cons.1 hw).1; omega⟩
    obtain ⟨c, w', rfl, hc⟩ := hw3
    rw [fromChars_infnan f fpu s hne (by rw [hs]; exact noNumber_letter neg c _ hc) hb]
    simp
  · rintro (hi | hn)
    · rw [hi]; simp
    · split
      · rfl
      · obtain ⟨c, r, rfl⟩ : ∃ c r, s = c :: r := by
          cases s with
          | nil => exact absurd rfl hne
          | cons c r => exact ⟨c, r, rfl⟩
        exact parseInfnan_refused f c r hn

/-- C146: a text that begins with a number in the format has a longest prefix that is one, and it is a number in one way only. -/
theorem C146_exists (o : ParseOptions) (hdp : IsPoint o.decimalPoint) (s : List Nat) (t : Num) (r : List Nat) (ht : t.WF (fmtOf o)) (hs : s = t.text o.decimalPoint ++ r) :
    (∃ u rest, LongestIn (fmtOf o) s u rest) ∧ ∀ u u' rest rest', LongestIn (fmtOf o) s u rest → LongestIn (fmtOf o) s u' rest' → u = u' ∧ rest = rest' := by
  constructor
  · -- a number with the shortest rest
    have hP : ∃ n, ∃ (u : Num) (r : List Nat), u.WF (fmtOf o) ∧ s = u.text o.decimalPoint ++ r ∧ r.length = n := ⟨_, t, r, ht, hs, rfl⟩
    classical
    obtain ⟨u, rest, hu, hsu, hn⟩ := Nat.find_spec hP
    refine ⟨u, rest, hu, hsu, ?_⟩
    intro v r' hv hs'
    rw [hn]
    exact Nat.find_min' hP ⟨v, r', hv, hs', rfl⟩
  · intro u u' rest rest' h h'
    have l1 := h.longest u' rest' h'.wf h'.split
    have l2 := h'.longest u rest h.wf h.split
    have he := List.append_inj' (h.split.symm.trans h'.split) (by omega)
    exact ⟨num_inj hdp h.wf h'.wf he.1, he.2⟩

/-- C146: the format `general` with the point '.' is what `from_chars` uses. -/
theorem C146_general (f : Fmt) (fpu : Fpu) (s : List Nat) (hb : ∀ c ∈ s, c < 256) : fromCharsAdvanced f fpu ⟨fmtGeneral, 46⟩ s = fromChars f fpu s := by
  have hfr : ∀ p, fracOfO 46 p = fracOf p := by intro p; cases p <;> rfl
  have haf : ∀ p, afterFracO 46 p = afterFrac p := by intro p; cases p <;> rfl
  have hx : ∀ p, exponentPartO fmtGeneral p = some (exponentPart p) := by
    intro p
    have f1 : hasFlag fmtGeneral fmtScientific = true := by decide
    have f2 : hasFlag fmtGeneral fmtFixed = true := by decide
    have f3 : hasFlag fmtGeneral fmtFortranBit = false := by decide
    unfold exponentPartO exponentPart
    rw [f1, f2, f3]
    cases p with
    | nil => rfl
    | cons c s =>
      by_cases hc : c = 101 ∨ c = 69
      · have hc' : (c == 101 || c == 69) = true := by simpa using hc
        simp only [List.head?_cons, Option.some_beq_some, Bool.true_and, Bool.false_and, Bool.or_false, hc', if_true, Bool.true_or, List.drop_succ_cons, List.drop_zero,
          if_pos hc]
        cases s with
        | nil => rfl
        | cons d s =>
          by_cases h1 : d = 45
          · simp only [h1, List.head?_cons, Option.some_beq_some, beq_self_eq_true, Bool.true_or, if_true, List.drop_succ_cons, List.drop_zero]
            cases s with
            | nil => rfl
            | cons d s =>
              simp only [List.head?_cons, Option.any_some]
              by_cases hd : isInteger d = true <;> simp [hd]
          · by_cases h2 : d = 43
            · simp only [h2, List.head?_cons, Option.some_beq_some]
              cases s with
              | nil => rfl
              | cons d s =>
                by_cases hd : isInteger d = true <;> simp [hd]
            · have e1 : (d == 45) = false := by simpa using h1
              have e2 : (d == 43) = false := by simpa using h2
              simp only [List.head?_cons, Option.some_beq_some, e1, e2, Bool.or_false, Bool.false_eq_true, if_false, h1, h2, Option.any_some]
              by_cases hd : isInteger d = true <;> simp [hd]
      · have hc' : (c == 101 || c == 69) = false := by simpa using hc
        simp only [List.head?_cons, Option.some_beq_some, Bool.true_and, Bool.false_and, Bool.or_false, hc', Bool.false_eq_true, if_false, if_neg hc]
        rfl
  have hu : ∀ neg s, (∀ c ∈ s, c < 256) → parseUnsignedO ⟨fmtGeneral, 46⟩ neg s = parseUnsigned neg s := by
    intro neg s hb
    rw [parseUnsignedO_eq ⟨fmtGeneral, 46⟩ (by decide) neg s hb, parseUnsigned_eq neg s hb]
    have fj : hasFlag fmtGeneral fmtJsonBit = false := by decide
    simp only [hfr, haf, hx, fj, refusedO, Bool.false_eq_true, if_false, beq_iff_eq]
  have hp : parseNumberStringO ⟨fmtGeneral, 46⟩ s = parseNumberString s := by
    cases s with
    | nil => rfl
    | cons c s =>
      have fj : hasFlag fmtGeneral fmtJsonBit = false := by decide
      unfold parseNumberStringO parseNumberString
      simp only [fj, Bool.false_eq_true, if_false]
      rw [hu false (c :: s) hb]
      cases s with
      | nil => rfl
      | cons d s =>
        rw [hu true (d :: s) (fun x hx => hb x (List.mem_cons_of_mem _ hx))]
  unfold fromCharsAdvanced fromChars
  rw [hp]
  rfl

/-- All values of `chars_format` are covered, and a comma can be the decimal point. -/
example : (∀ fmt ∈ [fmtScientific, fmtFixed, fmtHex, fmtNoInfnan, fmtJson, fmtJsonOrInfnan, fmtFortran, fmtGeneral],
    (fmtOf ⟨fmt, 44⟩).scientific = true ∨ (fmtOf ⟨fmt, 44⟩).fixed = true ∨ (fmtOf ⟨fmt, 44⟩).fortran = false) ∧ IsPoint 44 := by
  refine ⟨by decide, ?_⟩
  unfold IsPoint IsDigit
  omega

/-- "1,5+2x" is a number in the Fortran format with a comma, and "01" is none of JSON. -/
example (fpu : Fpu) : parseNumberStringO ⟨fmtFortran, 44⟩ (S "1,5+2x") = .ok ⟨1, 15, S "x", false, true, false, S "1", some (S "5")⟩ ∧
    fromCharsAdvanced dbl fpu ⟨fmtJson, 46⟩ (S "01") = .ok ⟨S "01", .invalidArgument, none⟩ ∧
    fromCharsAdvanced dbl fpu ⟨fmtJson, 46⟩ (S "nan") = .ok ⟨S "nan", .invalidArgument, none⟩ ∧
    fromCharsAdvanced dbl fpu ⟨fmtScientific, 46⟩ (S "1.5") = .ok ⟨S "1.5", .invalidArgument, none⟩ := ⟨by decide +kernel, rfl, rfl, rfl⟩

example : Num.WF (fmtOf ⟨fmtFortran, 44⟩) ⟨false, S "1", some (S "5"), some (none, some 43, S "2")⟩ ∧
    S "1,5+2x" = Num.text 44 ⟨false, S "1", some (S "5"), some (none, some 43, S "2")⟩ ++ S "x" := by
  refine ⟨⟨by decide, by decide, ?_, by simp⟩, by decide⟩
  intro l sg ds h
  cases h
  exact ⟨Or.inr ⟨rfl, by simp⟩, by simp, by decide, by decide⟩

/-- The format `hex` is accepted, but decimal numbers without exponent are read. -/
theorem C146_hex : parseNumberStringO ⟨fmtHex, 46⟩ (S "1f") = .ok ⟨0, 1, S "f", false, true, false, S "1", none⟩ := by decide +kernel

/-- C146: the flags are independent of each other: adding one to a format sets it and changes no other. -/
theorem C146_flags (fmt x y : Nat) (hx : x ∈ [fmtScientific, fmtFixed, fmtHex, fmtNoInfnan, fmtJsonBit, fmtFortranBit]) (hy : y ∈ [fmtScientific, fmtFixed, fmtHex, fmtNoInfnan, fmtJsonBit, fmtFortranBit]) :
    hasFlag (fmt ||| x) y = (hasFlag fmt y || x == y) := by
  have h0 : ∀ a ∈ [fmtScientific, fmtFixed, fmtHex, fmtNoInfnan, fmtJsonBit, fmtFortranBit], ∀ b ∈ [fmtScientific, fmtFixed, fmtHex, fmtNoInfnan, fmtJsonBit, fmtFortranBit],
      a &&& b = if a = b then b else 0 := by decide
  have h1 : ∀ a ∈ [fmtScientific, fmtFixed, fmtHex, fmtNoInfnan, fmtJsonBit, fmtFortranBit], a ≠ 0 := by decide
  unfold hasFlag
  rw [Nat.and_or_distrib_right, h0 x hx y hy]
  by_cases h : x = y
  · subst h
    rw [if_pos rfl]
    have : (fmt &&& x) ||| x ≠ 0 := fun g => h1 x hx (Nat.or_eq_zero_iff.1 g).2
    simp [this]
  · rw [if_neg h, Nat.or_zero]
    simp [h]

/-- C146: what the values of `chars_format` stand for: the exponent and how it may be written, whether the number has to be one of JSON, and whether infinities and NaNs are refused. -/
theorem C146_values (dp : Nat) :
    (fmtOf ⟨1, dp⟩, hasFlag 1 fmtJsonBit, hasFlag 1 fmtNoInfnan) = (⟨dp, true, false, false⟩, false, false) ∧
    (fmtOf ⟨4, dp⟩, hasFlag 4 fmtJsonBit, hasFlag 4 fmtNoInfnan) = (⟨dp, false, true, false⟩, false, false) ∧
    (fmtOf ⟨fmtGeneral, dp⟩, hasFlag fmtGeneral fmtJsonBit, hasFlag fmtGeneral fmtNoInfnan) = (⟨dp, true, true, false⟩, false, false) ∧
    (fmtOf ⟨fmtJson, dp⟩, hasFlag fmtJson fmtJsonBit, hasFlag fmtJson fmtNoInfnan) = (⟨dp, true, true, false⟩, true, true) ∧
    (fmtOf ⟨fmtJsonOrInfnan, dp⟩, hasFlag fmtJsonOrInfnan fmtJsonBit, hasFlag fmtJsonOrInfnan fmtNoInfnan) = (⟨dp, true, true, false⟩, true, false) ∧
    (fmtOf ⟨fmtFortran, dp⟩, hasFlag fmtFortran fmtJsonBit, hasFlag fmtFortran fmtNoInfnan) = (⟨dp, true, true, true⟩, false, false) := by
  simp [fmtOf, hasFlag, fmtGeneral, fmtJson, fmtJsonOrInfnan, fmtFortran, fmtScientific, fmtFixed, fmtNoInfnan, fmtJsonBit, fmtFortranBit]

example : hasFlag (fmtGeneral ||| fmtNoInfnan) fmtNoInfnan = true ∧ hasFlag (fmtGeneral ||| fmtNoInfnan) fmtJsonBit = false := by decide

end C4
