import Verif.Substr.Spans
import Verif.Substr.SearchLemmas
import Verif.Spec.Token
/-
Lemmas about the number scanners: each scanner returns the length of the token it looks for, if there is one.
-/
namespace C4
open Spec

theorem isDecC_iff (c : Nat) : isDecC c = true ↔ DecChar c := by simp [isDecC, DecChar]
theorem isHexC_iff (c : Nat) : isHexC c = true ↔ HexChar c := by
  simp only [isHexC, HexChar, Bool.or_eq_true, Bool.and_eq_true, decide_eq_true_eq]; omega
theorem isBinC_iff (c : Nat) : isBinC c = true ↔ BinChar c := by simp [isBinC, BinChar]
theorem isOctC_iff (c : Nat) : isOctC c = true ↔ OctChar c := by simp [isOctC, OctChar]
theorem isEC_iff (c : Nat) : isEC c = true ↔ IsE c := by simp [isEC, IsE]
theorem isPC_iff (c : Nat) : isPC c = true ↔ IsP c := by simp [isPC, IsP]
theorem isDelimChar_iff (c : Nat) : isDelimChar c = true ↔ DelimChar c := by
  simp only [isDelimChar, DelimChar, Blank, Bool.or_eq_true, beq_iff_eq]; omega

/-- What a scanner of the language `L` started behind `pre` on the text `w` returns: `pre.length` plus the length of
the token, `0` if there is none. -/
def ScansTo (L : List Nat → Prop) (pre w : List Nat) (k : Nat) : Prop :=
  (∀ b rest, w = b ++ rest → L b → DelimEnd rest → k = pre.length + b.length) ∧
  (k ≠ 0 → ∃ b rest, w = b ++ rest ∧ L b ∧ DelimEnd rest ∧ k = pre.length + b.length)

theorem ScansTo.congr {L L' : List Nat → Prop} {pre w : List Nat} {k : Nat} (h : ScansTo L pre w k)
    (e : ∀ b rest, w = b ++ rest → DelimEnd rest → (L b ↔ L' b)) : ScansTo L' pre w k := by
  refine ⟨fun b rest h1 h2 h3 => h.1 b rest h1 ((e b rest h1 h3).mpr h2) h3, fun hk => ?_⟩
  obtain ⟨b, rest, h1, h2, h3, h4⟩ := h.2 hk
  exact ⟨b, rest, h1, (e b rest h1 h3).mp h2, h3, h4⟩

theorem ScansTo.shift {L : List Nat → Prop} {pre p w : List Nat} {k : Nat} (h : ScansTo L (pre ++ p) w k) :
    ScansTo (fun b => ∃ b', b = p ++ b' ∧ L b') pre (p ++ w) k := by
  refine ⟨?_, fun hk => ?_⟩
  · rintro b rest h1 ⟨b', rfl, h2⟩ h3
    rw [List.append_assoc, List.append_cancel_left_eq] at h1
    rw [h.1 b' rest h1 h2 h3]; simp; omega
  · obtain ⟨b, rest, h1, h2, h3, h4⟩ := h.2 hk
    exact ⟨p ++ b, rest, by rw [h1]; simp, ⟨b, rfl, h2⟩, h3, by rw [h4]; simp; omega⟩

theorem delimEnd_nil : DelimEnd [] := by intro c h; simp at h
theorem delimEnd_cons {c : Nat} {t : List Nat} : DelimEnd (c :: t) ↔ DelimChar c := by
  simp [DelimEnd]

/-- The head of `r`, if any, is not in the class. -/
def HeadNot (P : Nat → Prop) (r : List Nat) : Prop := ∀ c, r.head? = some c → ¬ P c

theorem headNot_cons {P : Nat → Prop} {c : Nat} {t : List Nat} : HeadNot P (c :: t) ↔ ¬ P c := by
  simp [HeadNot]

theorem span_unique {P : Nat → Prop} : ∀ (a a' r r' : List Nat), (∀ c ∈ a, P c) → (∀ c ∈ a', P c) → HeadNot P r →
    HeadNot P r' → a ++ r = a' ++ r' → a = a' ∧ r = r' := by
  intro a
  induction a with
  | nil =>
    intro a' r r' _ h2 h3 _ e
    cases a' with
    | nil => exact ⟨rfl, by simpa using e⟩
    | cons x a' =>
      simp at e
      subst e
      exact absurd (h2 x (by simp)) (h3 x rfl)
  | cons y a ih =>
    intro a' r r' h1 h2 h3 h4 e
    cases a' with
    | nil =>
      simp at e
      subst e
      exact absurd (h1 y (by simp)) (h4 y rfl)
    | cons x a' =>
      simp only [List.cons_append, List.cons.injEq] at e
      obtain ⟨e1, e2⟩ := ih a' r r' (fun c hc => h1 c (by simp [hc])) (fun c hc => h2 c (by simp [hc])) h3 h4 e.2
      exact ⟨by rw [e.1, e1], e2⟩

theorem exists_span (P : Nat → Prop) [DecidablePred P] : ∀ w : List Nat, ∃ a r, w = a ++ r ∧ (∀ c ∈ a, P c) ∧ HeadNot P r
  | [] => ⟨[], [], rfl, by simp, by simp [HeadNot]⟩
  | c :: w => by
    by_cases h : P c
    · obtain ⟨a, r, h1, h2, h3⟩ := exists_span P w
      refine ⟨c :: a, r, by rw [h1]; rfl, fun x hx => ?_, h3⟩
      rcases List.mem_cons.mp hx with rfl | hx
      · exact h
      · exact h2 x hx
    · exact ⟨[], c :: w, rfl, by simp, headNot_cons.mpr h⟩

theorem delimEnd_headNot {P : Nat → Prop} (hP : ∀ c, DelimChar c → ¬ P c) {r : List Nat} (h : DelimEnd r) : HeadNot P r :=
  fun c hc => hP c (h c hc)

/-! ### Integral spans -/

/-- What a digit loop ending on `rest` returns. -/
def loopEnd (skip i : Nat) : List Nat → Option Nat
  | [] => none
  | c :: _ => some (if decide (i > skip) && isDelimChar c then i else 0)

theorem digitLoop_eq {isDig : Nat → Bool} (skip : Nat) (s rest : List Nat) (hr : HeadNot (fun c => isDig c = true) rest) :
    ∀ (ds pre : List Nat), s = pre ++ ds ++ rest → (∀ c ∈ ds, isDig c = true) →
    forUpN (fun i => do
      let c ← rd s i
      .ok (if !isDig c then some (if decide (i > skip) && isDelimChar c then i else 0) else none))
      (ds.length + rest.length) pre.length = .ok (loopEnd skip (pre.length + ds.length) rest) := by
  intro ds
  induction ds with
  | nil =>
    intro pre hs _
    cases rest with
    | nil => rfl
    | cons c t =>
      have hc : isDig c = false := by simpa using headNot_cons.mp hr
      simp only [List.length_nil, Nat.zero_add, List.length_cons, forUpN, loopEnd]
      rw [rd_some (c := c) (by rw [hs]; simp)]
      simp only [Res.ok_bind, hc, Bool.not_false, if_true, Nat.add_zero]
  | cons d ds ih =>
    intro pre hs hd
    rw [show (d :: ds).length + rest.length = (ds.length + rest.length) + 1 by simp; omega, forUpN]
    rw [rd_some (c := d) (by rw [hs]; simp)]
    simp only [Res.ok_bind, hd d (by simp), Bool.not_true, Bool.false_eq_true, if_false]
    have := ih (pre ++ [d]) (by rw [hs]; simp) (fun c hc => hd c (by simp [hc]))
    rw [show pre.length + 1 = (pre ++ [d]).length by simp, this]
    congr 2; simp; omega

theorem digitLoop_split {isDig : Nat → Bool} (pre ds rest : List Nat) (hr : HeadNot (fun c => isDig c = true) rest)
    (hd : ∀ c ∈ ds, isDig c = true) :
    digitLoop (pre ++ (ds ++ rest)) isDig pre.length = .ok (loopEnd pre.length (pre.length + ds.length) rest) := by
  unfold digitLoop forUp
  rw [show (pre ++ (ds ++ rest)).length - pre.length = ds.length + rest.length by simp]
  exact digitLoop_eq pre.length _ rest hr ds pre (by simp) hd

theorem digitSpan_scans {isDig : Nat → Bool} {P : Nat → Prop} (hP : ∀ c, isDig c = true ↔ P c)
    (hD : ∀ c, DelimChar c → ¬ P c) (pre w : List Nat) (hw : w ≠ []) :
    ∃ k, digitSpan (pre ++ w) isDig pre.length = .ok k ∧ ScansTo (Run P) pre w k := by
  obtain ⟨ds, rest, rfl, h2, h3⟩ := exists_span (fun c => isDig c = true) w
  have hcompl : ∀ b rest', ds ++ rest = b ++ rest' → Run P b → DelimEnd rest' → b = ds ∧ rest' = rest := by
    intro b rest' e ⟨hb1, hb2⟩ hr
    obtain ⟨e1, e2⟩ := span_unique (P := fun c => isDig c = true) ds b rest rest' h2
      (fun c hc => (hP c).mpr (hb2 c hc)) h3 (delimEnd_headNot (fun c hc h => hD c hc ((hP c).mp h)) hr) e
    exact ⟨e1.symm, e2.symm⟩
  have hrun : ds ≠ [] → Run P ds := fun h => ⟨h, fun c hc => (hP c).mp (h2 c hc)⟩
  unfold digitSpan
  rw [digitLoop_split pre ds rest h3 h2]
  cases rest with
  | nil =>
    refine ⟨_, rfl, ?_, ?_⟩
    · intro b rest' e hb hr
      obtain ⟨rfl, rfl⟩ := hcompl b rest' e hb hr
      simp
    · intro hk
      have hds : ds ≠ [] := by simpa using hw
      exact ⟨ds, [], rfl, hrun hds, delimEnd_nil, by simp⟩
  | cons c t =>
    refine ⟨_, rfl, ?_, ?_⟩
    · intro b rest' e hb hr
      have hne := hb.1
      obtain ⟨rfl, rfl⟩ := hcompl b rest' e hb hr
      have hdc : isDelimChar c = true := (isDelimChar_iff c).mpr (delimEnd_cons.mp hr)
      have := List.length_pos_iff.mpr hne
      rw [if_pos]
      simp [hdc, this]
    · intro hk
      split at hk
      · rename_i h
        simp only [Bool.and_eq_true, decide_eq_true_eq] at h
        have hds : ds ≠ [] := by rintro rfl; simp at h
        refine ⟨ds, c :: t, rfl, hrun hds, delimEnd_cons.mpr ((isDelimChar_iff c).mp h.2), ?_⟩
        rw [if_pos (by simpa using h)]
      · exact absurd rfl hk

theorem dec_not_delim (c : Nat) (h : DelimChar c) : ¬ DecChar c := by
  unfold DelimChar Blank at h; unfold DecChar; omega
theorem hex_not_delim (c : Nat) (h : DelimChar c) : ¬ HexChar c := by
  unfold DelimChar Blank at h; unfold HexChar; omega
theorem bin_not_delim (c : Nat) (h : DelimChar c) : ¬ BinChar c := by
  unfold DelimChar Blank at h; unfold BinChar; omega
theorem oct_not_delim (c : Nat) (h : DelimChar c) : ¬ OctChar c := by
  unfold DelimChar Blank at h; unfold OctChar; omega

/-- A text starting with `0` and a character which is neither a digit nor a delimiter is no decimal token. -/
theorem no_dec_prefix {x : Nat} {t b rest : List Nat} (hx : ¬ DecChar x) (hx2 : ¬ DelimChar x)
    (e : 48 :: x :: t = b ++ rest) (hb : Run DecChar b) (hr : DelimEnd rest) : False := by
  obtain ⟨hne, hb⟩ := hb
  match b, hne with
  | [c], _ =>
    simp at e
    rw [← e.2] at hr
    exact hx2 (delimEnd_cons.mp hr)
  | c :: d :: b', _ =>
    simp at e
    exact hx (by rw [e.2.1]; exact hb d (by simp))

theorem intBody_radix {P : Nat → Prop} {x : Nat} {t b rest : List Nat} (hw : 48 :: x :: t = b ++ rest) (hr : DelimEnd rest)
    (hx : ¬ DecChar x) (hx2 : ¬ DelimChar x)
    (hP : ∀ ds, Run P ds ↔ ((x = 120 ∨ x = 88) ∧ Run HexChar ds) ∨ ((x = 98 ∨ x = 66) ∧ Run BinChar ds) ∨
      ((x = 111 ∨ x = 79) ∧ Run OctChar ds)) :
    (∃ b', b = [48, x] ++ b' ∧ Run P b') ↔ IntBody b := by
  constructor
  · rintro ⟨b', rfl, h⟩
    rcases (hP b').mp h with ⟨h1, h2⟩ | ⟨h1, h2⟩ | ⟨h1, h2⟩
    · exact .hex h1 h2
    · exact .bin h1 h2
    · exact .oct h1 h2
  · intro h
    cases h with
    | dec h => exact (no_dec_prefix hx hx2 hw h hr).elim
    | @hex y ds h1 h2 =>
      simp at hw
      exact ⟨ds, by simp [hw.1], (hP ds).mpr (Or.inl ⟨hw.1 ▸ h1, h2⟩)⟩
    | @bin y ds h1 h2 =>
      simp at hw
      exact ⟨ds, by simp [hw.1], (hP ds).mpr (Or.inr (Or.inl ⟨hw.1 ▸ h1, h2⟩))⟩
    | @oct y ds h1 h2 =>
      simp at hw
      exact ⟨ds, by simp [hw.1], (hP ds).mpr (Or.inr (Or.inr ⟨hw.1 ▸ h1, h2⟩))⟩

/-- `_first_integral_span(skip_start)` scans integer literals. -/
theorem firstIntegralSpan_scans (pre w : List Nat) :
    ∃ k, firstIntegralSpan (pre ++ w) pre.length = .ok k ∧ ScansTo IntBody pre w k := by
  by_cases hw : w = []
  · subst hw
    refine ⟨0, by simp [firstIntegralSpan], ?_, fun h => absurd rfl h⟩
    intro b rest e hb _
    have : b = [] := by simp at e; exact e.1
    subst this
    cases hb with
    | dec h => exact absurd rfl h.1
  have hlen := List.length_pos_iff.mpr hw
  have hdec : (∀ b rest, w = b ++ rest → DelimEnd rest → (Run DecChar b ↔ IntBody b)) →
      ∃ k, digitSpan (pre ++ w) isDecC pre.length = .ok k ∧ ScansTo IntBody pre w k := by
    intro h
    obtain ⟨k, h1, h2⟩ := digitSpan_scans isDecC_iff dec_not_delim pre w hw
    exact ⟨k, h1, h2.congr h⟩
  unfold firstIntegralSpan
  rw [if_neg (by simp; exact hw)]
  split
  · rename_i h3
    simp at h3
    obtain ⟨c, w1, rfl⟩ := List.exists_cons_of_ne_nil hw
    have hw1 : 2 ≤ w1.length := by simp at h3; omega
    obtain ⟨x, t, rfl⟩ := List.exists_cons_of_length_pos (l := w1) (by omega)
    have ht : t ≠ [] := by rintro rfl; simp at hw1
    rw [rd_some (s := pre ++ c :: x :: t) (c := c) (by simp)]
    simp only [Res.ok_bind]
    split
    · rename_i hc
      obtain ⟨k, h1, h2⟩ := hdec (by
        intro b rest e hr
        constructor
        · exact .dec
        · intro h
          cases h with
          | dec h => exact h
          | hex _ _ => simp at e; exact absurd e.1 hc
          | bin _ _ => simp at e; exact absurd e.1 hc
          | oct _ _ => simp at e; exact absurd e.1 hc)
      refine ⟨k, ?_, h2⟩
      -- the loop is repeated after it completed
      rw [← h1]
      unfold digitSpan
      cases digitLoop (pre ++ c :: x :: t) isDecC pre.length with
      | ok o => cases o <;> rfl
      | ub => rfl
      | abort => rfl
      | loop => rfl
    · rename_i hc
      have hc : c = 48 := by simpa using hc
      subst hc
      rw [rd_some (s := pre ++ 48 :: x :: t) (i := pre.length + 1) (c := x) (by simp)]
      simp only [Res.ok_bind]
      have hshift : ∀ {isDig : Nat → Bool} {P : Nat → Prop}, (∀ c, isDig c = true ↔ P c) → (∀ c, DelimChar c → ¬ P c) →
          ¬ DecChar x → ¬ DelimChar x →
          (∀ ds, Run P ds ↔ ((x = 120 ∨ x = 88) ∧ Run HexChar ds) ∨ ((x = 98 ∨ x = 66) ∧ Run BinChar ds) ∨
            ((x = 111 ∨ x = 79) ∧ Run OctChar ds)) →
          ∃ k, digitSpan (pre ++ 48 :: x :: t) isDig (pre.length + 2) = .ok k ∧ ScansTo IntBody pre (48 :: x :: t) k := by
        intro isDig P h1 h2 h3 h4 h5
        obtain ⟨k, g1, g2⟩ := digitSpan_scans h1 h2 (pre ++ [48, x]) t ht
        refine ⟨k, by simpa using g1, ?_⟩
        exact g2.shift.congr (fun b rest e hr => intBody_radix e hr h3 h4 h5)
      split
      · rename_i hx
        refine hshift isHexC_iff hex_not_delim (by unfold DecChar; omega) (by unfold DelimChar Blank; omega) (fun ds => ?_)
        constructor
        · exact fun h => Or.inl ⟨hx, h⟩
        · rintro (⟨_, h⟩ | ⟨h, _⟩ | ⟨h, _⟩)
          · exact h
          · omega
          · omega
      · split
        · rename_i hx
          refine hshift isBinC_iff bin_not_delim (by unfold DecChar; omega) (by unfold DelimChar Blank; omega) (fun ds => ?_)
          constructor
          · exact fun h => Or.inr (Or.inl ⟨hx, h⟩)
          · rintro (⟨h, _⟩ | ⟨_, h⟩ | ⟨h, _⟩)
            · omega
            · exact h
            · omega
        · split
          · rename_i hx
            refine hshift isOctC_iff oct_not_delim (by unfold DecChar; omega) (by unfold DelimChar Blank; omega) (fun ds => ?_)
            constructor
            · exact fun h => Or.inr (Or.inr ⟨hx, h⟩)
            · rintro (⟨h, _⟩ | ⟨h, _⟩ | ⟨_, h⟩)
              · omega
              · omega
              · exact h
          · apply hdec
            rename_i hx1 hx2 hx3
            intro b rest e hr
            constructor
            · exact .dec
            · intro h
              cases h with
              | dec h => exact h
              | hex h _ => simp at e; rw [← e.1] at h; exact absurd h hx1
              | bin h _ => simp at e; rw [← e.1] at h; exact absurd h hx2
              | oct h _ => simp at e; rw [← e.1] at h; exact absurd h hx3
  · rename_i h3
    apply hdec
    intro b rest e hr
    have hlt : w.length < 3 := by simp at h3; omega
    have hb : b.length ≤ w.length := by rw [e]; simp
    have hrun : ∀ {P : Nat → Prop} {ds : List Nat}, Run P ds → 0 < ds.length := fun h => List.length_pos_iff.mpr h.1
    constructor
    · exact .dec
    · intro h
      cases h with
      | dec h => exact h
      | hex _ h => have := hrun h; simp at hb; omega
      | bin _ h => have := hrun h; simp at hb; omega
      | oct _ h => have := hrun h; simp at hb; omega

/-! ### The first non-empty span -/

theorem isFirst_split {s : List Nat} {Q : Nat → Prop} {r : Option Nat} (h : IsFirst (CharSat s Q) 0 s.length r) :
    match r with
    | none => ∀ c ∈ s, ¬ Q c
    | some i => ∃ a c b, s = a ++ c :: b ∧ (∀ x ∈ a, ¬ Q x) ∧ Q c ∧ i = a.length := by
  cases r with
  | none =>
    intro c hc hq
    obtain ⟨j, hj, e⟩ := List.getElem_of_mem hc
    exact h j (by omega) hj ⟨c, by rw [List.getElem?_eq_getElem hj, e], hq⟩
  | some i =>
    obtain ⟨_, h2, ⟨c, hc, hq⟩, h4⟩ := h
    refine ⟨s.take i, c, s.drop (i + 1), ?_, ?_, hq, by simp; omega⟩
    · rw [List.getElem?_eq_getElem h2] at hc
      injection hc with hc
      rw [← hc, ← List.drop_eq_getElem_cons h2, List.take_append_drop]
    · intro x hx hqx
      obtain ⟨j, hj, e⟩ := List.getElem_of_mem hx
      simp at hj e
      exact h4 j (by omega) (by omega) ⟨x, by rw [List.getElem?_eq_getElem (by omega), e], hqx⟩

theorem mem_blankChars (c : Nat) : c ∈ blankChars ↔ Blank c := by simp [blankChars, Blank]

/-- `first_non_empty_span()`: the maximal run of non-blank characters after the leading blanks. -/
theorem firstNonEmptySpan_eq (s : List Nat) :
    ((∀ c ∈ s, Blank c) ∧ firstNonEmptySpan s = .ok (0, 0)) ∨
    (∃ ws ne rest, s = ws ++ ne ++ rest ∧ (∀ c ∈ ws, Blank c) ∧ Run (fun c => ¬ Blank c) ne ∧
      (∀ c, rest.head? = some c → Blank c) ∧ firstNonEmptySpan s = .ok (ws.length, ne.length)) := by
  unfold firstNonEmptySpan
  obtain ⟨r, h1, h2⟩ := firstNotOfSet_spec s blankChars 0
  rw [h1]
  have h3 := isFirst_split h2
  cases r with
  | none =>
    left
    refine ⟨fun c hc => ?_, rfl⟩
    have := h3 c hc
    rw [Classical.not_not] at this
    exact (mem_blankChars c).mp this
  | some pos =>
    right
    obtain ⟨ws, c, b, e1, e2, e3, e4⟩ := h3
    have hws : ∀ c ∈ ws, Blank c := fun c hc => by
      have := e2 c hc
      rw [Classical.not_not] at this
      exact (mem_blankChars c).mp this
    have hd : s.drop pos = c :: b := by rw [e1, e4]; simp
    simp only [Res.ok_bind]
    rw [hd]
    obtain ⟨r', g1, g2⟩ := firstOfSet_spec (c :: b) blankChars 0
    rw [g1]
    have g3 := isFirst_split g2
    cases r' with
    | none =>
      refine ⟨ws, c :: b, [], by simp [e1], hws, ⟨by simp, fun x hx hb => g3 x hx ((mem_blankChars x).mpr hb)⟩, by simp, ?_⟩
      simp [e1, e4]
    | some q =>
      obtain ⟨a', c', b', f1, f2, f3, f4⟩ := g3
      refine ⟨ws, a', c' :: b', by rw [List.append_assoc, ← f1, e1], hws, ⟨?_, fun x hx hb => f2 x hx ((mem_blankChars x).mpr hb)⟩,
        ?_, by simp [f4, e4]⟩
      · rintro rfl
        simp at f1
        exact e3 (f1.1 ▸ f3)
      · intro x hx
        simp at hx
        subst hx
        exact (mem_blankChars _).mp f3

end C4
