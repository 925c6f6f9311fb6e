import Verif.Substr.RealSpanLemmas
/-
Properties C43-C45: number spans and number predicates.
-/
namespace C4
open Spec

/-- The contract of a span function for tokens of language `T`: it never reads outside the string, returns a part of
the string, returns the token at the first non-blank character if there is one, and a non-empty result is that token. -/
def SpanContract (f : List Nat → Res Rng) (T : List Nat → Prop) : Prop :=
  ∀ s, ∃ r, f s = .ok r ∧ r.1 + r.2 ≤ s.length ∧ (∀ off n, TokenAt T s off n → r = (off, n)) ∧
    (r.2 ≠ 0 → TokenAt T s r.1 r.2)

/-! ### Preliminaries -/

/-- Tokens are not empty and have no blanks. -/
def NoBlank (T : List Nat → Prop) : Prop := ∀ t, T t → Run (fun c => ¬ Blank c) t

theorem run_mono {P Q : Nat → Prop} (h : ∀ c, P c → Q c) {t : List Nat} (hr : Run P t) : Run Q t :=
  ⟨hr.1, fun c hc => h c (hr.2 c hc)⟩

theorem intBody_noBlank {b : List Nat} (h : IntBody b) : Run (fun c => ¬ Blank c) b := by
  have aux : ∀ (x : Nat) (ds : List Nat) (P : Nat → Prop), ¬ Blank x → (∀ c, P c → HexChar c) → Run P ds →
      Run (fun c => ¬ Blank c) (48 :: x :: ds) := by
    intro x ds P hx hP h
    refine ⟨by simp, fun c hc => ?_⟩
    simp at hc
    rcases hc with rfl | rfl | hc
    · unfold Blank; omega
    · exact hx
    · have := hP c (h.2 c hc); unfold HexChar at this; unfold Blank; omega
  cases h with
  | dec h => exact run_mono (fun c h => by unfold DecChar at h; unfold Blank; omega) h
  | hex hx h => exact aux _ _ _ (by unfold Blank; omega) (fun _ h => h) h
  | bin hx h => exact aux _ _ _ (by unfold Blank; omega) (fun c h => by unfold BinChar at h; unfold HexChar; omega) h
  | oct hx h => exact aux _ _ _ (by unfold Blank; omega) (fun c h => by unfold OctChar at h; unfold HexChar; omega) h

theorem realBody_noBlank {P Pw : Nat → Prop} {signs : List (List Nat)} (hP : ∀ c, P c → HexChar c)
    (hPw : ∀ c, Pw c → ¬ Blank c) (hs : ∀ sg ∈ signs, sg = [] ∨ sg = [43] ∨ sg = [45]) {b : List Nat} (h : RealBody P Pw signs b) :
    Run (fun c => ¬ Blank c) b := by
  have hne := realBody_ne h
  refine ⟨List.length_pos_iff.mp hne, fun c hc => ?_⟩
  obtain ⟨ip, fp, ep, rfl, h1, h2, h3⟩ := h
  have hdig : ∀ c, P c → ¬ Blank c := fun c h => by
    have := hP c h; unfold HexChar at this; unfold Blank; omega
  simp only [List.mem_append] at hc
  rcases hc with (hc | hc) | hc
  · exact hdig c (h1 c hc)
  · rcases h2 with ⟨rfl, _⟩ | ⟨f, rfl, h2, _⟩
    · simp at hc
    · simp at hc
      rcases hc with rfl | hc
      · unfold Blank; omega
      · exact hdig c (h2 c hc)
  · rcases h3 with rfl | ⟨e, sg, ds, rfl, h4, h5, h6⟩
    · simp at hc
    · simp at hc
      rcases hc with rfl | hc | hc
      · exact hPw _ h4
      · rcases hs sg h5 with rfl | rfl | rfl <;> simp at hc <;> (unfold Blank; omega)
      · have := h6.2 c hc; unfold DecChar at this; unfold Blank; omega

theorem realLit_noBlank {b : List Nat} (h : RealLit b) : Run (fun c => ¬ Blank c) b := by
  have aux : ∀ (x : Nat) (ds : List Nat), ¬ Blank x → Run (fun c => ¬ Blank c) ds → Run (fun c => ¬ Blank c) (48 :: x :: ds) := by
    intro x ds hx h
    refine ⟨by simp, fun c hc => ?_⟩
    simp at hc
    rcases hc with rfl | rfl | hc
    · unfold Blank; omega
    · exact hx
    · exact h.2 c hc
  have hpw : ∀ c, IsP c → ¬ Blank c := fun c h => by unfold IsP at h; unfold Blank; omega
  cases h with
  | dec h =>
    have h1 : ∀ c, DecChar c → HexChar c := fun c h => by unfold DecChar at h; unfold HexChar; omega
    have h2 : ∀ c, IsE c → ¬ Blank c := fun c h => by unfold IsE at h; unfold Blank; omega
    exact realBody_noBlank h1 h2 (by simp) h
  | hex hx h => exact aux _ _ (by unfold Blank; omega) (realBody_noBlank (fun _ h => h) hpw (by simp) h)
  | bin hx h =>
    have h1 : ∀ c, BinChar c → HexChar c := fun c h => by unfold BinChar at h; unfold HexChar; omega
    exact aux _ _ (by unfold Blank; omega) (realBody_noBlank h1 hpw (by simp) h)
  | oct hx h =>
    have h1 : ∀ c, OctChar c → HexChar c := fun c h => by unfold OctChar at h; unfold HexChar; omega
    exact aux _ _ (by unfold Blank; omega) (realBody_noBlank h1 hpw (by simp) h)
  | inf => exact ⟨by simp, by simp [Blank]⟩
  | infinity => exact ⟨by simp, by simp [Blank]⟩
  | nan => exact ⟨by simp, by simp [Blank]⟩

theorem sign_noBlank {L : List Nat → Prop} (hL : NoBlank L) {minus : Bool} :
    NoBlank (fun t => ∃ sg body, t = sg ++ body ∧ SignText minus sg ∧ L body) := by
  rintro t ⟨sg, body, rfl, h1, h2⟩
  have hb := hL body h2
  refine ⟨by simp [hb.1], fun c hc => ?_⟩
  rw [List.mem_append] at hc
  rcases hc with hc | hc
  · rcases h1 with rfl | rfl | ⟨_, rfl⟩ <;> simp at hc <;> (unfold Blank; omega)
  · exact hb.2 c hc

theorem intToken_noBlank (minus : Bool) : NoBlank (IntToken minus) := sign_noBlank (fun _ => intBody_noBlank)
theorem realToken_noBlank : NoBlank RealToken := sign_noBlank (fun _ => realLit_noBlank)

theorem noToken_blank {T : List Nat → Prop} (hT : NoBlank T) {s : List Nat} (hs : ∀ c ∈ s, Blank c) (off n : Nat) :
    ¬ TokenAt T s off n := by
  rintro ⟨ws, tok, rest, rfl, _, h, _⟩
  obtain ⟨c, t, rfl⟩ := List.exists_cons_of_ne_nil (hT _ h).1
  exact (hT _ h).2 c (by simp) (hs c (by simp))

/-- From the scan of the first non-blank run to the token of the whole string. -/
theorem span_core {T : List Nat → Prop} (hT : NoBlank T) {s ws ne rest : List Nat} (hs : s = ws ++ ne ++ rest)
    (hws : ∀ c ∈ ws, Blank c) (hne : Run (fun c => ¬ Blank c) ne) (hrest : ∀ c, rest.head? = some c → Blank c) {k : Nat}
    (hk : ScansTo T [] ne k) :
    ws.length + k ≤ s.length ∧ (∀ off n, TokenAt T s off n → (ws.length, k) = (off, n)) ∧
      (k ≠ 0 → TokenAt T s ws.length k) := by
  refine ⟨?_, ?_, ?_⟩
  · by_cases h0 : k = 0
    · rw [h0, hs]; simp
    · obtain ⟨b, r', rfl, _, _, h⟩ := hk.2 h0
      rw [h, hs]; simp
  · rintro off n ⟨ws', tok, rest', e, h1, h2, h3, rfl, rfl⟩
    have htok := hT _ h2
    obtain ⟨x, ne', hx⟩ := List.exists_cons_of_ne_nil hne.1
    obtain ⟨y, tok', hy⟩ := List.exists_cons_of_ne_nil htok.1
    have hxb : ¬ Blank x := hne.2 x (by simp [hx])
    have hyb : ¬ Blank y := htok.2 y (by simp [hy])
    obtain ⟨e1, e2⟩ := span_unique (P := Blank) ws ws' (ne ++ rest) (tok ++ rest') hws h1
      (by rw [hx]; exact headNot_cons.mpr hxb) (by rw [hy]; exact headNot_cons.mpr hyb)
      (by rw [← List.append_assoc, ← hs, e, List.append_assoc])
    subst e1
    rcases List.append_eq_append_iff.mp e2 with ⟨q, hq1, hq2⟩ | ⟨q, hq1, hq2⟩
    · have hqn : q = [] := by
        cases q with
        | nil => rfl
        | cons z q =>
          exfalso
          refine htok.2 z (by rw [hq1]; simp) (hrest z (by rw [hq2]; rfl))
      subst hqn
      have := hk.1 tok [] (by simpa using hq1.symm) h2 delimEnd_nil
      rw [this]; simp
    · have := hk.1 tok q hq1 h2 (fun c hc => h3 c (by rw [hq2]; cases q with
        | nil => simp at hc
        | cons z q => simpa using hc))
      rw [this]; simp
  · intro h0
    obtain ⟨b, r', e, h1, h2, h3⟩ := hk.2 h0
    refine ⟨ws, b, r' ++ rest, by rw [hs, e]; simp, hws, h1, ?_, rfl, by simpa using h3⟩
    intro c hc
    cases r' with
    | nil => exact Or.inl (hrest c (by simpa using hc))
    | cons z r' => exact h2 c (by simpa using hc)

theorem Rng_of_mid (ws ne rest : List Nat) : Rng.of (ws ++ ne ++ rest) (ws.length, ne.length) = ne := by
  simp [Rng.of]

/-- Scan of an optional sign and a literal. -/
theorem signed_scans {L : List Nat → Prop} {scan : List Nat → Nat → Res Nat}
    (hscan : ∀ pre w, ∃ k, scan (pre ++ w) pre.length = .ok k ∧ ScansTo L pre w k) (minus : Bool) (c : Nat) (t : List Nat)
    (hL : ∀ b, ¬ L (43 :: b) ∧ ¬ L (45 :: b)) (hL0 : ¬ L []) (hc : minus = false → c ≠ 45) :
    ∃ k, scan (c :: t) (if c = 43 ∨ c = 45 then 1 else 0) = .ok k ∧
      ScansTo (fun t => ∃ sg body, t = sg ++ body ∧ SignText minus sg ∧ L body) [] (c :: t) k := by
  by_cases hs : c = 43 ∨ c = 45
  · rw [if_pos hs]
    obtain ⟨k, h1, h2⟩ := hscan [c] t
    refine ⟨k, h1, ?_⟩
    have h3 : ScansTo (fun b => ∃ b', b = [c] ++ b' ∧ L b') [] (c :: t) k := ScansTo.shift (pre := []) (p := [c]) h2
    refine h3.congr (fun b rest e hr => ⟨?_, ?_⟩)
    · rintro ⟨b', rfl, h⟩
      refine ⟨[c], b', rfl, ?_, h⟩
      rcases hs with rfl | rfl
      · exact Or.inr (Or.inl rfl)
      · cases minus with
        | false => exact absurd rfl (hc rfl)
        | true => exact Or.inr (Or.inr ⟨rfl, rfl⟩)
    · rintro ⟨sg, body, rfl, hsg, h⟩
      rcases hsg with rfl | rfl | ⟨_, rfl⟩
      · exfalso
        cases body with
        | nil => exact hL0 h
        | cons d body =>
          simp at e
          obtain ⟨rfl, _⟩ := e
          rcases hs with rfl | rfl
          · exact (hL body).1 h
          · exact (hL body).2 h
      · simp at e; exact ⟨body, by simp [e.1], h⟩
      · simp at e; exact ⟨body, by simp [e.1], h⟩
  · rw [if_neg hs]
    obtain ⟨k, h1, h2⟩ := hscan [] (c :: t)
    refine ⟨k, h1, h2.congr (fun b rest e hr => ⟨fun h => ⟨[], b, rfl, Or.inl rfl, h⟩, ?_⟩)⟩
    rintro ⟨sg, body, rfl, hsg, h⟩
    rcases hsg with rfl | rfl | ⟨_, rfl⟩
    · exact h
    · simp at e; omega
    · simp at e; omega

theorem intBody_sign (b : List Nat) : ¬ IntBody (43 :: b) ∧ ¬ IntBody (45 :: b) := by
  constructor <;>
  · intro h
    cases h with
    | dec h => have := h.2 _ (List.mem_cons_self ..); unfold DecChar at this; omega

theorem realLit_sign (b : List Nat) : ¬ RealLit (43 :: b) ∧ ¬ RealLit (45 :: b) := by
  constructor <;>
  · intro h
    cases h with
    | dec h => have := realBody_head h; unfold DecChar at this; omega

theorem intBody_nil : ¬ IntBody [] := by
  intro h
  cases h with
  | dec h => exact h.1 rfl

/-! ### C43 -/

theorem firstIntSpan_contract : SpanContract firstIntSpan (IntToken true) := by
  intro s
  unfold firstIntSpan
  rcases firstNonEmptySpan_eq s with ⟨h1, h2⟩ | ⟨ws, ne, rest, h1, h2, h3, h4, h5⟩
  · rw [h2, Res.ok_bind, if_pos rfl]
    exact ⟨_, rfl, by simp, fun off n h => absurd h (noToken_blank (intToken_noBlank true) h1 off n), fun h => absurd rfl h⟩
  · obtain ⟨c, t, rfl⟩ := List.exists_cons_of_ne_nil h3.1
    obtain ⟨k, g1, g2⟩ := signed_scans (minus := true) firstIntegralSpan_scans c t intBody_sign intBody_nil (by simp)
    have := span_core (intToken_noBlank true) h1 h2 h3 h4 g2
    rw [h5, Res.ok_bind, if_neg (by simp), h1, Rng_of_mid, rd_some (c := c) (by simp), Res.ok_bind, g1, Res.ok_bind, ← h1]
    exact ⟨_, rfl, this⟩

theorem firstUintSpan_contract : SpanContract firstUintSpan (IntToken false) := by
  intro s
  unfold firstUintSpan
  rcases firstNonEmptySpan_eq s with ⟨h1, h2⟩ | ⟨ws, ne, rest, h1, h2, h3, h4, h5⟩
  · rw [h2, Res.ok_bind, if_pos rfl]
    exact ⟨_, rfl, by simp, fun off n h => absurd h (noToken_blank (intToken_noBlank false) h1 off n), fun h => absurd rfl h⟩
  · obtain ⟨c, t, rfl⟩ := List.exists_cons_of_ne_nil h3.1
    rw [h5, Res.ok_bind, if_neg (by simp), h1, Rng_of_mid, rd_some (c := c) (by simp), Res.ok_bind, ← h1]
    by_cases hc : c = 45
    · rw [if_pos hc]
      refine ⟨_, rfl, by simp, fun off n h => ?_, fun h => absurd rfl h⟩
      exfalso
      obtain ⟨ws', tok, rest', e, f1, f2, f3, _⟩ := h
      have htok := intToken_noBlank false _ f2
      obtain ⟨y, tok', rfl⟩ := List.exists_cons_of_ne_nil htok.1
      obtain ⟨_, e2⟩ := span_unique (P := Blank) ws ws' (c :: t ++ rest) (y :: tok' ++ rest') h2 f1
        (headNot_cons.mpr (h3.2 c (by simp))) (headNot_cons.mpr (htok.2 y (by simp)))
        (by rw [← List.append_assoc, ← h1, e, List.append_assoc])
      simp at e2
      obtain ⟨sg, body, g1, g2, g3⟩ := f2
      rcases g2 with rfl | rfl | ⟨h, _⟩
      · simp at g1
        rw [← g1, ← e2.1, hc] at g3
        exact (intBody_sign _).2 g3
      · simp at g1; omega
      · simp at h
    · rw [if_neg hc]
      obtain ⟨k, g1, g2⟩ := signed_scans (minus := false) firstIntegralSpan_scans c t intBody_sign intBody_nil (fun _ => hc)
      have := span_core (intToken_noBlank false) h1 h2 h3 h4 g2
      rw [show (if c = 43 then 1 else 0) = (if c = 43 ∨ c = 45 then 1 else 0) by simp [hc], g1, Res.ok_bind]
      exact ⟨_, rfl, this⟩

theorem firstRealSpan_contract : SpanContract firstRealSpan RealToken := by
  intro s
  unfold firstRealSpan
  rcases firstNonEmptySpan_eq s with ⟨h1, h2⟩ | ⟨ws, ne, rest, h1, h2, h3, h4, h5⟩
  · rw [h2, Res.ok_bind, if_pos rfl]
    exact ⟨_, rfl, by simp, fun off n h => absurd h (noToken_blank realToken_noBlank h1 off n), fun h => absurd rfl h⟩
  · obtain ⟨c, t, rfl⟩ := List.exists_cons_of_ne_nil h3.1
    obtain ⟨k, g1, g2⟩ := signed_scans (minus := true) realAfterSign_scans c t realLit_sign (fun h => realLit_ne h rfl) (by simp)
    have := span_core realToken_noBlank h1 h2 h3 h4 g2
    rw [h5, Res.ok_bind, if_neg (by simp), h1, Rng_of_mid, realSpanNe_eq, g1, Res.ok_bind, ← h1]
    exact ⟨_, rfl, this⟩

/-- **C43**: `first_int_span()` on every string reads nothing outside it and returns the integer token (optional sign,
optional radix prefix, digits) that starts at the first non-blank character and is followed by a delimiter or the end, if
there is one; a non-empty result is always such a token. -/
theorem C43_int (s : List Nat) : ∃ r, firstIntSpan s = .ok r ∧ r.1 + r.2 ≤ s.length ∧
    (∀ off n, TokenAt (IntToken true) s off n → r = (off, n)) ∧ (r.2 ≠ 0 → TokenAt (IntToken true) s r.1 r.2) :=
  firstIntSpan_contract s

/-- **C43**: the same for `first_uint_span()` and tokens without minus sign. -/
theorem C43_uint (s : List Nat) : ∃ r, firstUintSpan s = .ok r ∧ r.1 + r.2 ≤ s.length ∧
    (∀ off n, TokenAt (IntToken false) s off n → r = (off, n)) ∧ (r.2 ≠ 0 → TokenAt (IntToken false) s r.1 r.2) :=
  firstUintSpan_contract s

example : firstIntSpan (S " \t-0x1F, 2") = .ok (2, 5) := by decide +kernel
example : TokenAt (IntToken true) (S " \t-0x1F, 2") 2 5 :=
  ⟨S " \t", S "-0x1F", S ", 2", by decide +kernel, by simp [S, Blank],
    ⟨[45], S "0x1F", by decide +kernel, Or.inr (Or.inr ⟨rfl, rfl⟩), .hex (x := 120) (ds := S "1F") (Or.inl rfl)
      ⟨by decide +kernel, fun c hc => by
        have : c = 49 ∨ c = 70 := by simpa [S] using hc
        unfold HexChar; omega⟩⟩,
    (by intro c hc; have : 44 = c := by simpa [S] using hc
        subst this; unfold DelimChar; omega), by decide +kernel, by decide +kernel⟩
example : firstUintSpan (S "  12ab") = .ok (2, 0) ∧ firstUintSpan (S "-1") = .ok (0, 0) ∧ firstUintSpan (S "0b") = .ok (0, 0) := by
  decide +kernel

/-! ### C44 -/

theorem noSpan_eq (s : List Nat) : ∃ b, noSpan s = .ok b ∧ (b = true ↔ ∀ c ∈ s, Blank c) := by
  unfold noSpan
  by_cases h0 : s.length = 0
  · rw [if_pos h0]
    have := List.length_eq_zero_iff.mp h0
    subst this
    exact ⟨true, rfl, by simp⟩
  · rw [if_neg h0]
    rcases firstNonEmptySpan_eq s with ⟨h1, h2⟩ | ⟨ws, ne, rest, h1, h2, h3, h4, h5⟩
    · rw [h2, Res.ok_bind]; exact ⟨_, rfl, by simpa using h1⟩
    · rw [h5, Res.ok_bind]
      obtain ⟨c, t, rfl⟩ := List.exists_cons_of_ne_nil h3.1
      refine ⟨_, rfl, ?_⟩
      simp only [List.length_cons, Nat.add_eq_zero_iff, beq_iff_eq]
      constructor
      · intro h; omega
      · intro h; exact absurd (h c (by rw [h1]; simp)) (h3.2 c (by simp))

theorem whole_iff {T : List Nat → Prop} {s : List Nat} (hs : ¬ ∀ c ∈ s, Blank c) {r : Rng}
    (h1 : r.1 + r.2 ≤ s.length) (h2 : ∀ off n, TokenAt T s off n → r = (off, n)) (h3 : r.2 ≠ 0 → TokenAt T s r.1 r.2) :
    Rng.of s r = s ↔ T s := by
  have hne : s ≠ [] := by rintro rfl; exact hs (by simp)
  constructor
  · intro h
    have hl := congrArg List.length h
    have hpos := List.length_pos_iff.mpr hne
    simp [Rng.of] at hl
    have h5 : r.2 = s.length := by omega
    obtain ⟨ws, tok, rest, e, _, g, _, e1, e2⟩ := h3 (by omega)
    have hl2 := congrArg List.length e
    simp at hl2
    have : ws = [] := List.length_eq_zero_iff.mp (by omega)
    have : rest = [] := List.length_eq_zero_iff.mp (by omega)
    subst ws rest
    simp at e; rw [e]; exact g
  · intro h
    have := h2 0 s.length ⟨[], s, [], by simp, by simp, h, delimEnd_nil, rfl, rfl⟩
    rw [this]; simp [Rng.of]

theorem not_T_of_blank {T : List Nat → Prop} (hT : NoBlank T) {s : List Nat} (hs : ∀ c ∈ s, Blank c) : ¬ T s := by
  intro h
  obtain ⟨c, t, rfl⟩ := List.exists_cons_of_ne_nil (hT _ h).1
  exact (hT _ h).2 c (by simp) (hs c (by simp))

/-- **C44**: `is_unsigned_integer()` holds exactly if the whole string is an integer token without minus sign. -/
theorem C44_is_unsigned_integer (s : List Nat) : ∃ b, isUnsignedInteger s = .ok b ∧ (b = true ↔ IntToken false s) := by
  unfold isUnsignedInteger
  obtain ⟨b, h1, h2⟩ := noSpan_eq s
  obtain ⟨u, u1, u2, u3, u4⟩ := firstUintSpan_contract s
  rw [h1, Res.ok_bind]
  cases b with
  | true => exact ⟨false, rfl, by simpa using not_T_of_blank (intToken_noBlank false) (h2.mp rfl)⟩
  | false =>
    rw [u1]
    exact ⟨_, rfl, by rw [decide_eq_true_eq]; exact whole_iff (fun h => by simpa using h2.mpr h) u2 u3 u4⟩

theorem intToken_mono {s : List Nat} (h : IntToken false s) : IntToken true s := by
  obtain ⟨sg, b, e, h1, h2⟩ := h
  refine ⟨sg, b, e, ?_, h2⟩
  rcases h1 with h | h | ⟨h, _⟩
  · exact Or.inl h
  · exact Or.inr (Or.inl h)
  · simp at h

/-- **C44**: `is_integer()` holds exactly if the whole string is an integer token. -/
theorem C44_is_integer (s : List Nat) : ∃ b, isInteger s = .ok b ∧ (b = true ↔ IntToken true s) := by
  unfold isInteger
  obtain ⟨b, h1, h2⟩ := noSpan_eq s
  obtain ⟨u, u1, u2, u3, u4⟩ := firstUintSpan_contract s
  obtain ⟨i, i1, i2, i3, i4⟩ := firstIntSpan_contract s
  rw [h1, Res.ok_bind]
  cases b with
  | true => exact ⟨false, rfl, by simpa using not_T_of_blank (intToken_noBlank true) (h2.mp rfl)⟩
  | false =>
    have hb : ¬ ∀ c ∈ s, Blank c := fun h => by simpa using h2.mpr h
    rw [if_neg (by simp), u1, Res.ok_bind]
    by_cases hu : Rng.of s u = s
    · rw [if_pos hu]
      exact ⟨true, rfl, by simpa using intToken_mono ((whole_iff hb u2 u3 u4).mp hu)⟩
    · rw [if_neg hu, i1, Res.ok_bind]
      exact ⟨_, rfl, by rw [decide_eq_true_eq]; exact whole_iff hb i2 i3 i4⟩

/-- **C44**: `is_real()` holds exactly if the whole string is a real token. -/
theorem C44_is_real (s : List Nat) : ∃ b, isReal s = .ok b ∧ (b = true ↔ RealToken s) := by
  unfold isReal
  obtain ⟨b, h1, h2⟩ := noSpan_eq s
  obtain ⟨u, u1, u2, u3, u4⟩ := firstRealSpan_contract s
  rw [h1, Res.ok_bind]
  cases b with
  | true => exact ⟨false, rfl, by simpa using not_T_of_blank realToken_noBlank (h2.mp rfl)⟩
  | false =>
    rw [u1]
    exact ⟨_, rfl, by rw [decide_eq_true_eq]; exact whole_iff (fun h => by simpa using h2.mpr h) u2 u3 u4⟩

/-- **C44**: `is_number()` holds exactly if the whole string is an integer token or a real token. -/
theorem C44_is_number (s : List Nat) : ∃ b, isNumber s = .ok b ∧ (b = true ↔ IntToken true s ∨ RealToken s) := by
  unfold isNumber
  obtain ⟨b, h1, h2⟩ := noSpan_eq s
  obtain ⟨u, u1, u2, u3, u4⟩ := firstUintSpan_contract s
  obtain ⟨i, i1, i2, i3, i4⟩ := firstIntSpan_contract s
  obtain ⟨r, r1, r2, r3, r4⟩ := firstRealSpan_contract s
  rw [h1, Res.ok_bind]
  cases b with
  | true =>
    refine ⟨false, rfl, ?_⟩
    have := not_T_of_blank realToken_noBlank (h2.mp rfl)
    have := not_T_of_blank (intToken_noBlank true) (h2.mp rfl)
    simp [*]
  | false =>
    have hb : ¬ ∀ c ∈ s, Blank c := fun h => by simpa using h2.mpr h
    have wu := whole_iff hb u2 u3 u4
    have wi := whole_iff hb i2 i3 i4
    have wr := whole_iff hb r2 r3 r4
    rw [if_neg (by simp), u1, Res.ok_bind]
    by_cases hu : Rng.of s u = s
    · rw [if_pos hu]
      exact ⟨true, rfl, by simpa using Or.inl (intToken_mono (wu.mp hu))⟩
    · rw [if_neg hu, i1, Res.ok_bind]
      by_cases hi : Rng.of s i = s
      · rw [if_pos hi]
        exact ⟨true, rfl, by simpa using Or.inl (wi.mp hi)⟩
      · rw [if_neg hi, r1, Res.ok_bind]
        refine ⟨_, rfl, ?_⟩
        rw [decide_eq_true_eq, wr]
        exact ⟨Or.inr, fun h => h.elim (fun h => absurd (wi.mpr h) hi) id⟩

/-- **C44**: an integer is a number. -/
theorem C44_integer_is_number (s : List Nat) (h : isInteger s = .ok true) : isNumber s = .ok true := by
  obtain ⟨b, h1, h2⟩ := C44_is_integer s
  obtain ⟨b', h3, h4⟩ := C44_is_number s
  rw [h1] at h; cases h
  rw [h3, h4.mpr (Or.inl (h2.mp rfl))]

example : isInteger (S "-0b101") = .ok true ∧ isUnsignedInteger (S "-0b101") = .ok false ∧ isInteger (S "12 ") = .ok false ∧
    isNumber (S "1.5e-3") = .ok true ∧ isReal (S "+infinity") = .ok true ∧ isReal (S "1.e") = .ok false ∧
    isReal (S "0x1.8p+3") = .ok true ∧ isReal (S "0x1.8p3") = .ok false := by decide +kernel

/-! ### C45 -/

/-- **C45**: `first_real_span()` on every string reads nothing outside it and returns the real token at the first non-blank
character (followed by a delimiter or the end) if there is one; a non-empty result is always such a token. -/
theorem C45_real_span (s : List Nat) : ∃ r, firstRealSpan s = .ok r ∧ r.1 + r.2 ≤ s.length ∧
    (∀ off n, TokenAt RealToken s off n → r = (off, n)) ∧ (r.2 ≠ 0 → TokenAt RealToken s r.1 r.2) :=
  firstRealSpan_contract s

/-- **C45**: an optional sign and a run of digits followed by a delimiter or the end is returned in full. -/
theorem C45_digits (ws sg ds rest : List Nat) (h1 : ∀ c ∈ ws, Blank c) (h2 : sg = [] ∨ sg = [43] ∨ sg = [45])
    (h3 : Run DecChar ds) (h4 : DelimEnd rest) :
    firstRealSpan (ws ++ sg ++ ds ++ rest) = .ok (ws.length, sg.length + ds.length) := by
  obtain ⟨r, e, _, g, _⟩ := firstRealSpan_contract (ws ++ sg ++ ds ++ rest)
  have := g ws.length (sg.length + ds.length) ⟨ws, sg ++ ds, rest, by simp, h1, ⟨sg, ds, rfl, ?_, ?_⟩, h4, rfl, by simp⟩
  · rw [e, this]
  · rcases h2 with h | h | h
    · exact Or.inl h
    · exact Or.inr (Or.inl h)
    · exact Or.inr (Or.inr ⟨rfl, h⟩)
  · exact .dec ⟨ds, [], [], by simp, h3.2, Or.inl ⟨rfl, h3.1⟩, Or.inl rfl⟩

example : firstRealSpan (S " -1.25e+10,") = .ok (1, 9) ∧ firstRealSpan (S "1.25e+") = .ok (0, 0) ∧
    firstRealSpan (S "0xa.8p-1]") = .ok (0, 8) ∧ firstRealSpan (S "nan;") = .ok (0, 3) ∧ firstRealSpan (S "infin") = .ok (0, 0) := by
  decide +kernel
example : firstRealSpan (S "  -123]") = .ok (2, 4) := C45_digits (S "  ") [45] (S "123") (S "]") (by simp [S, Blank]) (by simp)
  ⟨by decide +kernel, by intro c hc; have : c = 49 ∨ c = 50 ∨ c = 51 := by simpa [S] using hc
                         unfold DecChar; omega⟩
  (by intro c hc; have : 93 = c := by simpa [S] using hc
      unfold DelimChar; omega)

end C4
