import Verif.Enum
/-
Properties C73, C74: enum symbols and their names.
-/
namespace C4

/-! ### Specification -/

/-- The ways to spell a symbol: the full name, and the name without the class or the prefix if there is one. -/
def Spec.Spells (t : ETab) (name s : List Nat) : Prop :=
  s = name ∨ (0 < t.cls ∧ s = name.drop t.cls) ∨ (0 < t.pfx ∧ s = name.drop t.pfx)

/-- The offsets are shorter than all names, as the code asserts. -/
def Spec.TabOk (t : ETab) : Prop := ∀ p ∈ t.syms, t.cls < p.name.length ∧ t.pfx < p.name.length

/-- No spelling stands for two values. -/
def Spec.NoClash (t : ETab) : Prop :=
  ∀ p ∈ t.syms, ∀ q ∈ t.syms, ∀ s, Spells t p.name s → Spells t q.name s → p.value = q.value

open Spec

instance (t : ETab) (name s : List Nat) : Decidable (Spells t name s) := by unfold Spells; infer_instance

/-! ### Searching -/

theorem findSym_eq {cmp : List Nat → Res Bool} {P : List Nat → Bool} :
    ∀ {l : List ESym}, (∀ p ∈ l, cmp p.name = .ok (P p.name)) → findSym cmp l = .ok (l.find? fun p => P p.name) := by
  intro l
  induction l with
  | nil => intro _; rfl
  | cons p l ih =>
    intro h
    unfold findSym
    rw [h p (.head _), Res.ok_bind, List.find?_cons]
    cases P p.name with
    | true => rfl
    | false => simp only [Bool.false_eq_true, if_false]; exact ih fun q hq => h q (.tail _ hq)

theorem findVal_eq (v : Nat) (l : List ESym) : findVal v l = l.find? fun p => decide (p.value = v) := by
  induction l with
  | nil => rfl
  | cons p l ih =>
    unfold findVal
    rw [List.find?_cons]
    by_cases h : p.value = v
    · simp [h]
    · simp [h, ih]

theorem eoffs_le {t : ETab} {name : List Nat} (h : t.cls < name.length ∧ t.pfx < name.length) (e : EOff) :
    eoffs t e < name.length := by
  unfold eoffs
  cases e with
  | none => simp only []; omega
  | cls => exact h.1
  | pfx => simp only []; split <;> omega

theorem cmpLoop_cons {t : ETab} {name s : List Nat} {e : EOff} (h : eoffs t e < name.length) (es : List EOff) :
    cmpLoop t name s (e :: es) =
      if 0 < eoffs t e ∧ s = name.drop (eoffs t e) then .ok true else cmpLoop t name s es := by
  rw [cmpLoop]
  by_cases hc : eoffs t e > 0
  · simp only [if_pos hc, strAt, if_pos (Nat.le_of_lt h), Res.ok_bind, strEq, decide_eq_true_eq]
    by_cases e1 : s = name.drop (eoffs t e)
    · rw [if_pos e1.symm, if_pos ⟨hc, e1⟩]
    · rw [if_neg fun g => e1 g.symm, if_neg fun g => e1 g.2]
  · rw [if_neg (fun g : 0 < eoffs t e ∧ _ => hc g.1)]
    exact if_neg hc

/-- The offsets tried by `cmp` give the spellings. -/
theorem offs_spell {t : ETab} {name s : List Nat} :
    ((0 < eoffs t .cls ∧ s = name.drop (eoffs t .cls)) ∨ (0 < eoffs t .pfx ∧ s = name.drop (eoffs t .pfx))) ↔
      ((0 < t.cls ∧ s = name.drop t.cls) ∨ (0 < t.pfx ∧ s = name.drop t.pfx)) := by
  unfold eoffs
  by_cases hp : t.pfx > 0
  · rw [if_pos hp]
  · rw [if_neg hp]
    constructor
    · rintro (h | h) <;> exact .inl h
    · rintro (h | h)
      · exact .inl h
      · exact absurd h.1 hp

theorem symCmp_eq {t : ETab} {name : List Nat} (h : t.cls < name.length ∧ t.pfx < name.length) (s : List Nat) :
    symCmp t name s = .ok (decide (Spells t name s)) := by
  unfold symCmp strEq
  rw [cmpLoop_cons (eoffs_le h _), cmpLoop_cons (eoffs_le h _)]
  have ho := offs_spell (t := t) (name := name) (s := s)
  by_cases h0 : name = s
  · rw [if_pos (by simpa using h0)]; simp [h0, Spells]
  · rw [if_neg (by simpa using h0)]
    have h0' : ¬ s = name := fun e => h0 e.symm
    by_cases h1 : 0 < eoffs t .cls ∧ s = name.drop (eoffs t .cls)
    · rw [if_pos h1, decide_eq_true (.inr (ho.mp (.inl h1)))]
    · rw [if_neg h1]
      by_cases h2 : 0 < eoffs t .pfx ∧ s = name.drop (eoffs t .pfx)
      · rw [if_pos h2, decide_eq_true (.inr (ho.mp (.inr h2)))]
      · rw [if_neg h2, decide_eq_false]
        · rfl
        · rintro (g | g)
          · exact h0' g
          · exact (ho.mpr g).elim h1 h2

theorem findName_eq {t : ETab} (h : TabOk t) (s : List Nat) :
    findName t s = .ok (t.syms.find? fun p => decide (Spells t p.name s)) :=
  findSym_eq (P := fun n => decide (Spells t n s)) fun p hp => symCmp_eq (h p hp) s

theorem str2e_spelled {t : ETab} (h : TabOk t) (hc : NoClash t) {p : ESym} (hp : p ∈ t.syms) {s : List Nat}
    (hs : Spells t p.name s) : str2e t s = .ok p.value := by
  unfold str2e
  rw [findName_eq h, Res.ok_bind]
  cases hf : t.syms.find? fun p => decide (Spells t p.name s) with
  | none =>
    have := List.find?_eq_none.mp hf p hp
    simp [hs] at this
  | some q =>
    have h1 := List.find?_some hf
    have h2 := List.mem_of_find?_eq_some hf
    simp only [decide_eq_true_eq] at h1
    simp only [getSym]
    rw [Res.ok_bind, hc p hp q h2 s hs h1]

/-! ### C73 -/

/-- **C73**: `e2str` gives the name of a symbol with that value, and reports a value that has none. -/
theorem C73_e2str (t : ETab) (v : Nat) :
    if (∃ p ∈ t.syms, p.value = v) then ∃ p ∈ t.syms, p.value = v ∧ e2str t v = .ok p.name
    else e2str t v = .abort := by
  unfold e2str
  rw [findVal_eq]
  split
  · next h =>
    obtain ⟨p, hp, hv⟩ := h
    cases hf : t.syms.find? fun p => decide (p.value = v) with
    | none =>
      have := List.find?_eq_none.mp hf p hp
      simp [hv] at this
    | some q =>
      have h1 := List.find?_some hf
      simp only [decide_eq_true_eq] at h1
      exact ⟨q, List.mem_of_find?_eq_some hf, h1, rfl⟩
  · next h =>
    cases hf : t.syms.find? fun p => decide (p.value = v) with
    | none => rfl
    | some q =>
      have h1 := List.find?_some hf
      simp only [decide_eq_true_eq] at h1
      exact absurd ⟨q, List.mem_of_find?_eq_some hf, h1⟩ h

/-- **C73**: `str2e` accepts exactly the spellings of the symbols, and gives the value of a symbol spelled like that. -/
theorem C73_str2e {t : ETab} (h : TabOk t) (s : List Nat) :
    if (∃ p ∈ t.syms, Spells t p.name s) then ∃ p ∈ t.syms, Spells t p.name s ∧ str2e t s = .ok p.value
    else str2e t s = .abort := by
  unfold str2e
  rw [findName_eq h, Res.ok_bind]
  split
  · next hx =>
    obtain ⟨p, hp, hs⟩ := hx
    cases hf : t.syms.find? fun p => decide (Spells t p.name s) with
    | none =>
      have := List.find?_eq_none.mp hf p hp
      simp [hs] at this
    | some q =>
      have h1 := List.find?_some hf
      simp only [decide_eq_true_eq] at h1
      exact ⟨q, List.mem_of_find?_eq_some hf, h1, rfl⟩
  · next hx =>
    cases hf : t.syms.find? fun p => decide (Spells t p.name s) with
    | none => rfl
    | some q =>
      have h1 := List.find?_some hf
      simp only [decide_eq_true_eq] at h1
      exact absurd ⟨q, List.mem_of_find?_eq_some hf, h1⟩ hx

/-- **C73 is false**: values and names are distinct and all names start with the prefix, but a name without the prefix is another
full name. -/
theorem C73_refuted :
    let t : ETab := ⟨[⟨1, S "a_a_b"⟩, ⟨2, S "a_b"⟩], 0, 2⟩
    TabOk t ∧ e2str t 2 = .ok (S "a_b") ∧ str2e t (S "a_b") = .ok 1 := by
  refine ⟨?_, by decide +kernel, by decide +kernel⟩
  intro p hp
  simp at hp
  rcases hp with rfl | rfl <;> decide

/-- **C73**, what holds: if no spelling stands for two values, a value converted to a string, full or without class or prefix, is
read back as the same value.  Missing: ambiguous tables (false, see `C73_refuted`). -/
theorem C73_roundtrip_partial {t : ETab} (h : TabOk t) (hc : NoClash t) {v : Nat} (hv : ∃ p ∈ t.syms, p.value = v) (ot : EOff) :
    ∃ s, e2stroffs t v ot = .ok s ∧ str2e t s = .ok v := by
  have he := C73_e2str t v
  rw [if_pos hv] at he
  obtain ⟨p, hp, rfl, e⟩ := he
  obtain ⟨h1, h2⟩ := h p hp
  have ho : eoffs t ot ≤ p.name.length := Nat.le_of_lt (eoffs_le ⟨h1, h2⟩ ot)
  refine ⟨p.name.drop (eoffs t ot), ?_, str2e_spelled h hc hp ?_⟩
  · unfold e2stroffs
    rw [e, Res.ok_bind]
    unfold strAt
    rw [if_pos ho]
  · unfold Spells eoffs
    cases ot with
    | none => exact .inl rfl
    | cls =>
      by_cases hz : t.cls = 0
      · simp [hz]
      · exact .inr (.inl ⟨by omega, rfl⟩)
    | pfx =>
      simp only []
      by_cases hz : t.pfx > 0
      · rw [if_pos hz]; exact .inr (.inr ⟨hz, rfl⟩)
      · rw [if_neg hz]
        by_cases hz : t.cls = 0
        · simp [hz]
        · exact .inr (.inl ⟨by omega, rfl⟩)

def exTab : ETab := ⟨[⟨0, S "E::F_NONE"⟩, ⟨1, S "E::F_A"⟩, ⟨2, S "E::F_B"⟩, ⟨4, S "E::F_C"⟩, ⟨6, S "E::F_BC"⟩], 3, 5⟩

theorem exTab_ok : TabOk exTab := by
  intro p hp
  simp [exTab] at hp
  rcases hp with rfl | rfl | rfl | rfl | rfl <;> decide

theorem exTab_noClash : NoClash exTab := by
  intro p hp q hq s h1 h2
  simp [exTab] at hp hq
  unfold Spells exTab at h1 h2
  rcases hp with rfl | rfl | rfl | rfl | rfl <;> rcases hq with rfl | rfl | rfl | rfl | rfl <;>
    first
    | rfl
    | (exfalso
       rcases h1 with h1 | ⟨_, h1⟩ | ⟨_, h1⟩ <;> rcases h2 with h2 | ⟨_, h2⟩ | ⟨_, h2⟩ <;>
         (rw [h1] at h2; revert h2; decide +kernel))

example : e2stroffs exTab 6 .pfx = .ok (S "BC") ∧ str2e exTab (S "BC") = .ok 6 ∧ str2e exTab (S "F_BC") = .ok 6 ∧
    str2e exTab (S "E::F_BC") = .ok 6 ∧ str2e exTab (S "X") = .abort ∧ e2str exTab 3 = .abort := by decide +kernel

/-! ### C74 -/

theorem strnEq_eq : ∀ (s a : List Nat), (∀ c ∈ s, c ≠ 0) → strnEq a s s.length = .ok (decide (s <+: a)) := by
  intro s
  induction s with
  | nil => intro a _; cases a <;> simp [strnEq]
  | cons c s ih =>
    intro a h
    have hc := h c (.head _)
    cases a with
    | nil => simp [strnEq, hc]
    | cons x a =>
      simp only [List.length_cons, strnEq]
      by_cases e : x = c
      · subst e
        rw [if_pos rfl, ih a fun d hd => h d (.tail _ hd)]
        simp [List.cons_prefix_cons]
      · rw [if_neg e]
        have e' : ¬ c = x := fun g => e g.symm
        simp [List.cons_prefix_cons, e']

/-- What `cmp(s, len)` accepts. -/
def Spec.SpellsLen (t : ETab) (name s : List Nat) : Prop := s <+: name ∨ Spells t name s

instance (t : ETab) (name s : List Nat) : Decidable (SpellsLen t name s) := by unfold SpellsLen; infer_instance

theorem cmpLenLoop_cons {t : ETab} {name s : List Nat} (hs : ∀ c ∈ s, c ≠ 0) {e : EOff} (h : eoffs t e < name.length)
    (es : List EOff) :
    cmpLenLoop t name s (e :: es) =
      if 0 < eoffs t e ∧ s = name.drop (eoffs t e) then .ok true else cmpLenLoop t name s es := by
  rw [cmpLenLoop]
  generalize hE : cmpLenLoop t name s es = E
  by_cases hc : eoffs t e > 0
  · simp only [if_pos hc]
    by_cases hl : s.length ≥ name.length - eoffs t e
    · have hm : (if s.length > name.length - eoffs t e then s.length else name.length - eoffs t e) = s.length := by
        split <;> omega
      rw [hm, if_pos (Nat.le_refl _)]
      unfold strAt
      rw [if_pos (Nat.le_of_lt h), Res.ok_bind, strnEq_eq s _ hs, Res.ok_bind]
      by_cases e1 : s = name.drop (eoffs t e)
      · rw [if_pos (by rw [← e1]; simp), if_pos ⟨hc, e1⟩]
      · rw [if_neg (c := 0 < eoffs t e ∧ s = name.drop (eoffs t e)) fun g => e1 g.2, if_neg]
        rw [decide_eq_true_eq]
        intro hp
        exact e1 (hp.eq_of_length_le (by rw [List.length_drop]; omega))
    · rw [if_neg (by split <;> omega), Res.ok_bind, if_neg (by simp), if_neg]
      rintro ⟨-, e1⟩
      rw [e1, List.length_drop] at hl
      omega
  · rw [if_neg (fun g : 0 < eoffs t e ∧ _ => hc g.1)]
    simp only [if_neg hc]

theorem symCmpLen_eq {t : ETab} {name : List Nat} (h : t.cls < name.length ∧ t.pfx < name.length) {s : List Nat}
    (hs : ∀ c ∈ s, c ≠ 0) : symCmpLen t name s = .ok (decide (SpellsLen t name s)) := by
  unfold symCmpLen
  rw [strnEq_eq s name hs, Res.ok_bind, cmpLenLoop_cons hs (eoffs_le h _), cmpLenLoop_cons hs (eoffs_le h _)]
  have ho := offs_spell (t := t) (name := name) (s := s)
  by_cases h0 : s <+: name
  · rw [if_pos (by simpa using h0), decide_eq_true (.inl h0)]
  · rw [if_neg (by simpa using h0)]
    have h0' : ¬ s = name := fun e => h0 (e ▸ List.prefix_refl _)
    by_cases h1 : 0 < eoffs t .cls ∧ s = name.drop (eoffs t .cls)
    · rw [if_pos h1, decide_eq_true (.inr (.inr (ho.mp (.inl h1))))]
    · rw [if_neg h1]
      by_cases h2 : 0 < eoffs t .pfx ∧ s = name.drop (eoffs t .pfx)
      · rw [if_pos h2, decide_eq_true (.inr (.inr (ho.mp (.inr h2))))]
      · rw [if_neg h2, decide_eq_false]
        · rfl
        · rintro (g | g | g)
          · exact h0 g
          · exact h0' g
          · exact (ho.mpr g).elim h1 h2

theorem findNameLen_eq {t : ETab} (h : TabOk t) {s : List Nat} (hs : ∀ c ∈ s, c ≠ 0) :
    findNameLen t s = .ok (t.syms.find? fun p => decide (SpellsLen t p.name s)) :=
  findSym_eq (P := fun n => decide (SpellsLen t n s)) fun p hp => symCmpLen_eq (h p hp) hs

/-- **C74 is false**: any prefix of a full name, also the empty string, is taken for the symbol. -/
theorem C74_refuted :
    let t : ETab := ⟨[⟨1, S "red"⟩, ⟨2, S "green"⟩], 0, 0⟩
    findNameLen t (S "g") = .ok (some ⟨2, S "green"⟩) ∧ findNameLen t [] = .ok (some ⟨1, S "red"⟩) := by decide +kernel

/-- **C74 is false** also when the string is a name: an earlier symbol whose name goes on differently is found instead. -/
theorem C74_refuted_shadow :
    let t : ETab := ⟨[⟨1, S "ABC"⟩, ⟨2, S "AB"⟩], 0, 0⟩
    findNameLen t (S "AB") = .ok (some ⟨1, S "ABC"⟩) := by decide +kernel

/-- **C74**, what holds: the symbol found is the first one that is spelled like the string or whose full name starts with it; so
it is the right one if no full name starts with the string.  Missing: strings that are prefixes of names (false, see
above). -/
theorem C74_find_partial {t : ETab} (h : TabOk t) {s : List Nat} (hs : ∀ c ∈ s, c ≠ 0) :
    ∃ r, findNameLen t s = .ok r ∧
      (∀ p, r = some p → p ∈ t.syms ∧ (s <+: p.name ∨ Spells t p.name s)) ∧
      (r = none → ∀ p ∈ t.syms, ¬ Spells t p.name s) ∧
      ((∀ p ∈ t.syms, s <+: p.name → s = p.name) → ∀ p, r = some p → Spells t p.name s) := by
  refine ⟨_, findNameLen_eq h hs, fun p hp => ?_, fun hn p hp hsp => ?_, fun hpre p hp => ?_⟩
  · have h1 := List.find?_some hp
    simp only [decide_eq_true_eq] at h1
    exact ⟨List.mem_of_find?_eq_some hp, h1⟩
  · have := List.find?_eq_none.mp hn p hp
    exact this (decide_eq_true (.inr hsp))
  · have h1 := List.find?_some hp
    simp only [decide_eq_true_eq] at h1
    rcases h1 with h1 | h1
    · exact .inl (hpre p (List.mem_of_find?_eq_some hp) h1)
    · exact h1

example : findNameLen exTab (S "BC") = .ok (some ⟨6, S "E::F_BC"⟩) ∧ findNameLen exTab (S "E") = .ok (some ⟨0, S "E::F_NONE"⟩) := by
  decide +kernel

end C4
