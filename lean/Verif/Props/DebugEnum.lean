import Verif.Debug.Enum
import Verif.Props.DebugRead
import Verif.Props.BitmaskRead
/-
C166: enum symbols and bitmasks in builds with assertions.
-/
namespace C4
open Spec

/-! ### Specification -/

/-- There is an item of the list, up to the terminator, that has nothing but colons and blanks, in a text that is more than this item.
The characters before it are ones that the reader takes. -/
def Spec.BlankItem (s : List Nat) : Prop :=
  ∃ pre item post, s = pre ++ item ++ post ∧ (∀ c ∈ pre, BmLetter c ∨ BmDigit c ∨ BmSkip c ∨ c = 124) ∧ (∀ c ∈ item, BmSkip c) ∧
    (pre = [] ∨ pre.getLast? = some 124) ∧
    ((post = [] ∧ pre ≠ []) ∨ post.head? = some 124 ∨ post.head? = some 0)

/-! ### Names -/

theorem nameOffsD_eq {t : ETab} {name : List Nat} (h : t.cls < name.length ∧ t.pfx < name.length) (ot : EOff) :
    nameOffsD t name ot = strAt name (eoffs t ot) := by
  unfold nameOffsD; rw [assertThat_pos (eoffs_le h ot)]; rfl

theorem cmpLenLoopD_eq {t : ETab} {name : List Nat} (h : t.cls < name.length ∧ t.pfx < name.length) (s : List Nat) :
    ∀ es, cmpLenLoopD t name s es = cmpLenLoop t name s es := by
  intro es
  induction es with
  | nil => rfl
  | cons e es ih =>
    rw [cmpLenLoopD, cmpLenLoop, assertThat_pos (eoffs_le h e), ih]
    rfl

theorem findNameLenD_eq {t : ETab} (h : TabOk t) (s : List Nat) : findNameLenD t s = findNameLen t s := by
  unfold findNameLenD findNameLen
  have : ∀ l : List ESym, (∀ p ∈ l, t.cls < p.name.length ∧ t.pfx < p.name.length) →
      findSym (fun n => symCmpLenD t n s) l = findSym (fun n => symCmpLen t n s) l := by
    intro l
    induction l with
    | nil => intro _; rfl
    | cons p l ih =>
      intro hl
      rw [findSym, findSym, ih fun q hq => hl q (.tail _ hq)]
      have : symCmpLenD t p.name s = symCmpLen t p.name s := by
        unfold symCmpLenD symCmpLen; rw [cmpLenLoopD_eq (hl p (.head _))]
      rw [this]
  exact this _ h

theorem bmLoopD_eq {t : ETab} (w : Nat) (ot : EOff) : ∀ (l : List ESym), (∀ p ∈ l, t.cls < p.name.length ∧ t.pfx < p.name.length) →
    ∀ bits zero str pos, bmLoopD t w ot l bits zero str pos = bmLoop t w ot l bits zero str pos := by
  intro l
  induction l with
  | nil => intros; rfl
  | cons p l ih =>
    intro hl bits zero str pos
    have ih := ih fun q hq => hl q (.tail _ hq)
    rw [bmLoopD, bmLoop, nameOffsD_eq (hl p (.head _))]
    simp only [ih]

theorem bmLoop_zero {t : ETab} {w : Nat} {ot : EOff} : ∀ (l : List ESym) bits zero str pos r,
    bmLoop t w ot l bits zero str pos = .ok r → ∀ z, r.2.1 = some z → zero = some z ∨ z ∈ l := by
  intro l
  induction l with
  | nil => intro bits zero str pos r h z hz; cases h; exact .inl hz
  | cons p l ih =>
    intro bits zero str pos r h z hz
    rw [bmLoop] at h
    split at h
    · rcases ih _ _ _ _ _ h z hz with e | e
      · cases e; exact .inr (.head _)
      · exact .inr (.tail _ e)
    · split at h
      · have key : ∀ q : Option (List Nat) × Nat, (strAt p.name (eoffs t ot) >>= fun n => prependChars q.1 q.2 n >>= fun x =>
            bmLoop t w ot l (bits &&& bitNot w p.value) zero x.1 x.2) = .ok r → zero = some z ∨ z ∈ p :: l := by
          intro q h
          cases hb : strAt p.name (eoffs t ot) with
          | ok n =>
            rw [hb, Res.ok_bind] at h
            cases hc : prependChars q.1 q.2 n with
            | ok q' =>
              rw [hc, Res.ok_bind] at h
              rcases ih _ _ _ _ _ h z hz with e | e
              · exact .inl e
              · exact .inr (.tail _ e)
            | _ => rw [hc] at h; cases h
          | _ => rw [hb] at h; cases h
        dsimp only at h
        split at h
        · cases hc : prependChars str pos [124] with
          | ok q => rw [hc, Res.ok_bind] at h; exact key q h
          | _ => rw [hc] at h; cases h
        · exact key (str, pos) h
      · rcases ih _ _ _ _ _ h z hz with e | e
        · exact .inl e
        · exact .inr (.tail _ e)

theorem bm2strD_eq {t : ETab} (h : TabOk t) (w : Nat) (ot : EOff) (bits : Nat) (str : Option (List Nat)) (hs : str ≠ some []) :
    bm2strD t w ot bits str = bm2str t w ot bits str := by
  unfold bm2strD bm2str
  rw [assertThat_pos hs, Res.ok_bind, bmLoopD_eq w ot _ (fun p hp => h p (List.mem_reverse.1 hp))]
  cases hb : bmLoop t w ot t.syms.reverse bits none str 0 with
  | ok r =>
    obtain ⟨bits', zero, str', pos⟩ := r
    rw [Res.ok_bind, Res.ok_bind]
    cases zero with
    | none => rfl
    | some z =>
      have hz : z ∈ t.syms := by
        rcases bmLoop_zero _ _ _ _ _ _ hb z rfl with e | e
        · cases e
        · exact List.mem_reverse.1 e
      simp only [nameOffsD_eq (h z hz)]
  | _ => rfl

/-! ### Reading one item -/

theorem firstIntD_eq (ty : ITy) {s : List Nat} (h : 43 ∉ s) : firstIntD ty s = firstInt ty s := by
  unfold firstIntD firstInt
  split
  · obtain ⟨r, h1, h2⟩ := (C160_atoi_first_partial ty s).2 (by
      rintro ⟨off, n, _, h43⟩
      exact h (List.mem_of_getElem? h43))
    rw [h1, h2]
  · obtain ⟨r, h1, h2⟩ := C160_atou_first ty s
    rw [h1, h2]

theorem readOneD_eq {t : ETab} (h : TabOk t) (ty : ITy) {s : List Nat} (hs : 43 ∉ s) (al : Bool) :
    str2bmReadOneD t ty s al = str2bmReadOne t ty s al := by
  unfold str2bmReadOneD str2bmReadOne
  cases al with
  | true => rw [findNameLenD_eq h]; rfl
  | false =>
    rw [firstIntD_eq ty hs, uncat]
    simp only [Bool.false_eq_true, if_false]
    cases firstInt ty s with
    | ok r =>
      cases r with
      | none => rfl
      | some x => rfl
    | _ => rfl

/-! ### The loop -/

/-- What the loop meets in the rest of the text: an item with nothing in it. -/
def bmBad : Bool → Bool → List Nat → Prop
  | started, fnull, [] => started = false ∧ fnull = false
  | started, fnull, c :: r =>
    if (97 ≤ c ∧ c ≤ 122) ∨ (65 ≤ c ∧ c ≤ 90) ∨ c = 95 then bmBad true false r
    else if 48 ≤ c ∧ c ≤ 57 then bmBad true false r
    else if c = 58 ∨ c = 32 then bmBad started fnull r
    else if c = 124 ∨ c = 0 then started = false ∨ (c = 124 ∧ bmBad false false r)
    else False

structure BmInv (s : List Nat) (pc : Nat) (st : BmState) : Prop where
  xor : st.started = true → st.num ≠ st.alnum
  idle : st.started = false → st.num = false ∧ st.alnum = false
  f : st.started = true → st.f ≠ none
  le : ∀ f, st.f = some f → f ≤ pc
  plus : 43 ∉ s.take pc

theorem bmReadD_eq {t : ETab} (h : TabOk t) (ty : ITy) {s : List Nat} {pc : Nat} {st : BmState} (i : BmInv s pc st) :
    bmReadD t ty s st pc = if st.started then bmRead t ty s st pc else .abort := by
  unfold bmReadD bmRead
  cases hs : st.started with
  | false =>
    obtain ⟨h1, h2⟩ := i.idle hs
    rw [assertThat_neg (by rw [h1, h2]; simp)]; rfl
  | true =>
    rw [assertThat_pos (i.xor hs), Res.ok_bind]
    cases hf : st.f with
    | none => exact absurd hf (i.f hs)
    | some f =>
      simp only [if_true]
      rw [assertThat_pos (i.le f hf), Res.ok_bind, readOneD_eq h]
      intro hm
      apply i.plus
      rw [List.take_drop] at hm
      have := List.mem_of_mem_drop hm
      have hle := i.le f hf
      rwa [show f + (pc - f) = pc by omega] at this

theorem take_step {s rest : List Nat} {c pc : Nat} (hr : s.drop pc = c :: rest) : s.take (pc + 1) = s.take pc ++ [c] ∧ s.drop (pc + 1) = rest := by
  have hlt : pc < s.length := by
    have := congrArg List.length hr
    simp at this; omega
  have e := List.drop_eq_getElem_cons hlt
  rw [hr] at e
  cases e
  refine ⟨?_, rfl⟩
  rw [List.take_add_one, List.getElem?_eq_getElem hlt]
  rfl

theorem plus_step {s rest : List Nat} {c pc : Nat} (hr : s.drop pc = c :: rest) (h : 43 ∉ s.take pc) (hc : c ≠ 43) : 43 ∉ s.take (pc + 1) := by
  rw [(take_step hr).1]; simp; exact ⟨h, fun e => hc e.symm⟩

theorem BmInv.next {s : List Nat} {pc : Nat} {st : BmState} (i : BmInv s pc st) {c : Nat} {rest : List Nat} (hr : s.drop pc = c :: rest) (hc : c ≠ 43) :
    BmInv s (pc + 1) st :=
  ⟨i.xor, i.idle, i.f, fun f hf => by have := i.le f hf; omega, plus_step hr i.plus hc⟩

theorem loopD_eq {t : ETab} (h : TabOk t) (ty : ITy) (s : List Nat) : ∀ (rest : List Nat) (pc : Nat) (st : BmState),
    s.drop pc = rest → BmInv s pc st →
    (bmBad st.started st.f.isNone rest → str2bmLoopD t ty s rest pc st = .abort) ∧
    (¬ bmBad st.started st.f.isNone rest → str2bmLoopD t ty s rest pc st = str2bmLoop t ty s rest pc st) := by
  intro rest
  induction rest with
  | nil =>
    intro pc st hr i
    rw [str2bmLoopD, str2bmLoop, bmReadD_eq h ty i]
    cases hf : st.f with
    | none => simp [bmBad]
    | some f =>
      cases hs : st.started with
      | false => simp [bmBad]
      | true => simp [bmBad]
  | cons c rest ih =>
    intro pc st hr i
    have hd := (take_step hr).2
    rw [str2bmLoopD, str2bmLoop, bmBad]
    by_cases h1 : (97 ≤ c ∧ c ≤ 122) ∨ (65 ≤ c ∧ c ≤ 90) ∨ c = 95
    · simp only [if_pos h1]
      split
      · cases hs : st.started with
        | true =>
          simp only [if_true]
          have := ih (pc + 1) st hd (i.next hr (by omega))
          have hn : st.f.isNone = false := by cases hf : st.f with
            | none => exact absurd hf (i.f hs)
            | some f => rfl
          rw [hs, hn] at this
          exact this
        | false =>
          simp only [Bool.false_eq_true, if_false]
          obtain ⟨h2, h3⟩ := i.idle hs
          have := ih (pc + 1) { st with f := some pc, alnum := true, started := true } hd
            ⟨fun _ => by simp [h2], fun e => by simp at e, fun _ => by simp, fun f hf => by cases hf; omega, plus_step hr i.plus (by omega)⟩
          exact this
      · exact ⟨fun _ => rfl, fun _ => rfl⟩
    · simp only [if_neg h1]
      by_cases h2 : 48 ≤ c ∧ c ≤ 57
      · simp only [if_pos h2]
        split
        · exact ⟨fun _ => rfl, fun _ => rfl⟩
        · cases hs : st.started with
          | true =>
            simp only [if_true]
            have := ih (pc + 1) st hd (i.next hr (by omega))
            have hn : st.f.isNone = false := by cases hf : st.f with
              | none => exact absurd hf (i.f hs)
              | some f => rfl
            rw [hs, hn] at this
            exact this
          | false =>
            simp only [Bool.false_eq_true, if_false]
            obtain ⟨h2, h3⟩ := i.idle hs
            have := ih (pc + 1) { st with f := some pc, num := true, started := true } hd
              ⟨fun _ => by simp [h3], fun e => by simp at e, fun _ => by simp, fun f hf => by cases hf; omega, plus_step hr i.plus (by omega)⟩
            exact this
      · simp only [if_neg h2]
        by_cases h3 : c = 58 ∨ c = 32
        · simp only [if_pos h3]
          exact ih (pc + 1) st hd (i.next hr (by omega))
        · simp only [if_neg h3]
          by_cases h4 : c = 124 ∨ c = 0
          · simp only [if_pos h4]
            rw [bmReadD_eq h ty i]
            cases hs : st.started with
            | false => exact ⟨fun _ => rfl, fun hh => absurd (.inl rfl) hh⟩
            | true =>
              simp only [if_true]
              cases hb : bmRead t ty s st pc with
              | ok v =>
                simp only [Res.ok_bind]
                by_cases h0 : c = 0
                · subst h0
                  exact ⟨fun hh => by simp at hh, fun _ => rfl⟩
                · have h5 : c = 124 := by omega
                  subst h5
                  simp only [if_neg h0]
                  have hn : st.f.isNone = false := by cases hf : st.f with
                    | none => exact absurd hf (i.f hs)
                    | some f => rfl
                  have := ih (pc + 1) { st with val := st.val ||| v, started := false, num := false, alnum := false } hd
                    ⟨fun e => by simp at e, fun _ => ⟨rfl, rfl⟩, fun e => by simp at e, fun f hf => by have := i.le f hf; omega,
                      plus_step hr i.plus (by omega)⟩
                  rw [show ({ st with val := st.val ||| v, started := false, num := false, alnum := false } : BmState).f.isNone = false from hn] at this
                  simpa using this
              | abort => exact ⟨fun _ => rfl, fun _ => rfl⟩
              | ub =>
                exfalso
                unfold bmRead at hb
                cases hf : st.f with
                | none => exact absurd hf (i.f hs)
                | some f =>
                  simp only [hf] at hb
                  rcases readOne_total h ty ((s.drop f).take (pc - f)) st.alnum with ⟨v, e⟩ | e <;> rw [e] at hb <;> cases hb
              | loop =>
                exfalso
                unfold bmRead at hb
                cases hf : st.f with
                | none => exact absurd hf (i.f hs)
                | some f =>
                  simp only [hf] at hb
                  rcases readOne_total h ty ((s.drop f).take (pc - f)) st.alnum with ⟨v, e⟩ | e <;> rw [e] at hb <;> cases hb
          · simp only [if_neg h4]
            exact ⟨fun _ => trivial, fun _ => trivial⟩

theorem loopD_total {t : ETab} (h : TabOk t) (ty : ITy) (s : List Nat) : ∀ (rest : List Nat) (pc : Nat) (st : BmState),
    s.drop pc = rest → BmInv s pc st → (∃ v, str2bmLoopD t ty s rest pc st = .ok v) ∨ str2bmLoopD t ty s rest pc st = .abort := by
  have hread : ∀ (pc : Nat) (st : BmState), BmInv s pc st → (∃ v, bmReadD t ty s st pc = .ok v) ∨ bmReadD t ty s st pc = .abort := by
    intro pc st i
    rw [bmReadD_eq h ty i]
    cases hs : st.started with
    | false => exact .inr rfl
    | true =>
      simp only [if_true]
      unfold bmRead
      cases hf : st.f with
      | none => exact absurd hf (i.f hs)
      | some f => exact readOne_total h ty _ _
  intro rest
  induction rest with
  | nil =>
    intro pc st hr i
    rw [str2bmLoopD]
    cases st.f with
    | none => exact .inl ⟨_, rfl⟩
    | some f =>
      rcases hread pc st i with ⟨v, e⟩ | e
      · simp only [e]; exact .inl ⟨_, rfl⟩
      · simp only [e]; exact .inr rfl
  | cons c rest ih =>
    intro pc st hr i
    have hd := (take_step hr).2
    rw [str2bmLoopD]
    split
    · split
      · apply ih _ _ hd
        cases hs : st.started with
        | true => exact i.next hr (by omega)
        | false =>
          obtain ⟨h2, h3⟩ := i.idle hs
          exact ⟨fun _ => by simp [h2], fun e => by simp at e, fun _ => by simp, fun f hf => by cases hf; omega, plus_step hr i.plus (by omega)⟩
      · exact .inr rfl
    · split
      · split
        · exact .inr rfl
        · apply ih _ _ hd
          cases hs : st.started with
          | true => exact i.next hr (by omega)
          | false =>
            obtain ⟨h2, h3⟩ := i.idle hs
            exact ⟨fun _ => by simp [h3], fun e => by simp at e, fun _ => by simp, fun f hf => by cases hf; omega, plus_step hr i.plus (by omega)⟩
      · split
        · exact ih _ _ hd (i.next hr (by omega))
        · split
          · rcases hread pc st i with ⟨v, e⟩ | e
            · rw [e, Res.ok_bind]
              dsimp only
              split
              · exact .inl ⟨_, rfl⟩
              · exact ih _ _ hd ⟨fun e => by simp at e, fun _ => ⟨rfl, rfl⟩, fun e => by simp at e, fun f hf => by have := i.le f hf; omega,
                  plus_step hr i.plus (by omega)⟩
            · rw [e]; exact .inr rfl
          · exact .inr rfl

/-! ### Blank items -/

def Legal (c : Nat) : Prop := BmLetter c ∨ BmDigit c ∨ BmSkip c ∨ c = 124

def EndsItem (post : List Nat) : Prop := post.head? = some 124 ∨ post.head? = some 0

theorem bmBad_iff : ∀ (rest : List Nat) (started fnull : Bool), bmBad started fnull rest ↔
    ((started = false ∧ ∃ item post, rest = item ++ post ∧ (∀ c ∈ item, BmSkip c) ∧ ((post = [] ∧ fnull = false) ∨ EndsItem post)) ∨
      ∃ pre item post, rest = pre ++ 124 :: (item ++ post) ∧ (∀ c ∈ pre, Legal c) ∧ (∀ c ∈ item, BmSkip c) ∧ (post = [] ∨ EndsItem post)) := by
  intro rest
  induction rest with
  | nil =>
    intro started fnull
    rw [bmBad]
    constructor
    · rintro ⟨h1, h2⟩
      exact .inl ⟨h1, [], [], rfl, by simp, .inl ⟨rfl, h2⟩⟩
    · rintro (⟨h1, item, post, e, _, h⟩ | ⟨pre, item, post, e, _⟩)
      · have := List.append_eq_nil_iff.1 e.symm
        obtain ⟨rfl, rfl⟩ := this
        rcases h with h | h
        · exact ⟨h1, h.2⟩
        · simp [EndsItem] at h
      · simp at e
  | cons c r ih =>
    intro started fnull
    rw [bmBad]
    -- a character that belongs to an item
    have hchar : ∀ (hl : Legal c), ¬ BmSkip c → c ≠ 124 → c ≠ 0 → (bmBad true false r ↔
        ((started = false ∧ ∃ item post, c :: r = item ++ post ∧ (∀ c ∈ item, BmSkip c) ∧ ((post = [] ∧ fnull = false) ∨ EndsItem post)) ∨
      ∃ pre item post, c :: r = pre ++ 124 :: (item ++ post) ∧ (∀ c ∈ pre, Legal c) ∧ (∀ c ∈ item, BmSkip c) ∧ (post = [] ∨ EndsItem post))) := by
      intro hl hs h1 h0
      rw [ih]
      constructor
      · rintro (⟨h, _⟩ | ⟨pre, item, post, e, hp, hi, h⟩)
        · cases h
        · refine .inr ⟨c :: pre, item, post, by rw [e]; rfl, ?_, hi, h⟩
          intro d hd
          rcases List.mem_cons.1 hd with rfl | hd
          · exact hl
          · exact hp d hd
      · rintro (⟨h, item, post, e, hi, hp⟩ | ⟨pre, item, post, e, hp, hi, h⟩)
        · exfalso
          cases item with
          | nil =>
            rw [List.nil_append] at e
            subst e
            rcases hp with ⟨h, _⟩ | h
            · cases h
            · simp [EndsItem] at h; omega
          | cons d item => cases e; exact hs (hi _ (.head _))
        · cases pre with
          | nil => cases e; exact absurd rfl h1
          | cons d pre => cases e; exact .inr ⟨pre, item, post, rfl, fun x hx => hp x (.tail _ hx), hi, h⟩
    split
    · rename_i h1
      exact hchar (.inl h1) (by unfold BmSkip; omega) (by omega) (by omega)
    · split
      · rename_i h1 h2
        exact hchar (.inr (.inl h2)) (by unfold BmSkip; omega) (by omega) (by omega)
      · split
        · rename_i h1 h2 h3
          rw [ih]
          constructor
          · rintro (⟨h, item, post, e, hi, hp⟩ | ⟨pre, item, post, e, hp, hi, h⟩)
            · refine .inl ⟨h, c :: item, post, by rw [e]; rfl, ?_, hp⟩
              intro d hd
              rcases List.mem_cons.1 hd with rfl | hd
              · exact h3
              · exact hi d hd
            · refine .inr ⟨c :: pre, item, post, by rw [e]; rfl, ?_, hi, h⟩
              intro d hd
              rcases List.mem_cons.1 hd with rfl | hd
              · exact .inr (.inr (.inl h3))
              · exact hp d hd
          · rintro (⟨h, item, post, e, hi, hp⟩ | ⟨pre, item, post, e, hp, hi, h⟩)
            · cases item with
              | nil =>
                exfalso
                rw [List.nil_append] at e
                subst e
                rcases hp with ⟨h, _⟩ | h
                · cases h
                · simp [EndsItem] at h; omega
              | cons d item => cases e; exact .inl ⟨h, item, post, rfl, fun x hx => hi x (.tail _ hx), hp⟩
            · cases pre with
              | nil => cases e; omega
              | cons d pre => cases e; exact .inr ⟨pre, item, post, rfl, fun x hx => hp x (.tail _ hx), hi, h⟩
        · split
          · rename_i h1 h2 h3 h4
            rw [ih]
            constructor
            · rintro (h | ⟨rfl, h⟩)
              · refine .inl ⟨h, [], c :: r, rfl, by simp, .inr ?_⟩
                rcases h4 with rfl | rfl
                · exact .inl rfl
                · exact .inr rfl
              · rcases h with ⟨_, item, post, e, hi, hp⟩ | ⟨pre, item, post, e, hp, hi, h⟩
                · refine .inr ⟨[], item, post, by rw [e]; rfl, by simp, hi, ?_⟩
                  rcases hp with h | h
                  · exact .inl h.1
                  · exact .inr h
                · refine .inr ⟨124 :: pre, item, post, by rw [e]; rfl, ?_, hi, h⟩
                  intro d hd
                  rcases List.mem_cons.1 hd with rfl | hd
                  · exact .inr (.inr (.inr rfl))
                  · exact hp d hd
            · rintro (⟨h, _⟩ | ⟨pre, item, post, e, hp, hi, h⟩)
              · exact .inl h
              · cases pre with
                | nil =>
                  cases e
                  refine .inr ⟨rfl, .inl ⟨rfl, item, post, rfl, hi, ?_⟩⟩
                  rcases h with h | h
                  · exact .inl ⟨h, rfl⟩
                  · exact .inr h
                | cons d pre =>
                  cases e
                  have hd := hp c (.head _)
                  have : c = 124 := by unfold Legal BmLetter BmDigit BmSkip at hd; omega
                  exact .inr ⟨this, .inr ⟨pre, item, post, rfl, fun x hx => hp x (.tail _ hx), hi, h⟩⟩
          · rename_i h1 h2 h3 h4
            constructor
            · exact False.elim
            · rintro (⟨h, item, post, e, hi, hp⟩ | ⟨pre, item, post, e, hp, hi, h⟩)
              · cases item with
                | nil =>
                  rw [List.nil_append] at e
                  subst e
                  rcases hp with ⟨h, _⟩ | h
                  · cases h
                  · simp [EndsItem] at h; omega
                | cons d item => cases e; have := hi c (.head _); unfold BmSkip at this; omega
              · cases pre with
                | nil => cases e; omega
                | cons d pre => cases e; have hd := hp c (.head _); unfold Legal BmLetter BmDigit BmSkip at hd; omega

theorem bmBad_start (s : List Nat) : bmBad false true s ↔ BlankItem s := by
  rw [bmBad_iff]
  constructor
  · rintro (⟨_, item, post, e, hi, hp⟩ | ⟨pre, item, post, e, hp, hi, h⟩)
    · refine ⟨[], item, post, by rw [e]; rfl, by simp, hi, .inl rfl, .inr ?_⟩
      rcases hp with ⟨_, h⟩ | h
      · cases h
      · exact h
    · refine ⟨pre ++ [124], item, post, by rw [e]; simp, ?_, hi, .inr (by simp), ?_⟩
      · intro c hc
        rcases List.mem_append.1 hc with hc | hc
        · exact hp c hc
        · exact .inr (.inr (.inr (by simpa using hc)))
      · rcases h with h | h
        · exact .inl ⟨h, by simp⟩
        · exact .inr h
  · rintro ⟨pre, item, post, e, hp, hi, hl, h⟩
    rcases hl with rfl | hl
    · refine .inl ⟨rfl, item, post, by rw [e]; rfl, hi, .inr ?_⟩
      rcases h with ⟨_, h⟩ | h
      · exact absurd rfl h
      · exact h
    · obtain ⟨pre', rfl⟩ := List.getLast?_eq_some_iff.1 hl
      refine .inr ⟨pre', item, post, by rw [e]; simp, fun c hc => hp c (by simp [hc]), hi, ?_⟩
      rcases h with h | h
      · exact .inl h.1
      · exact .inr h

theorem bmInv_init (s : List Nat) : BmInv s 0 {} :=
  ⟨fun e => by simp at e, fun _ => ⟨rfl, rfl⟩, fun e => by simp at e, fun f hf => by simp at hf, by simp⟩

/-! ### C166 -/

/-- **C166** as far as it holds: with offsets shorter than all names, a text with a blank item fails an assertion, and every other text is read
as in a build without assertions. -/
theorem C166_str2bm_partial {t : ETab} (h : TabOk t) (ty : ITy) (s : List Nat) :
    (BlankItem s → str2bmD t ty s = .abort) ∧ (¬ BlankItem s → str2bmD t ty s = str2bm t ty s) := by
  have := loopD_eq h ty s s 0 {} rfl (bmInv_init s)
  rw [← bmBad_start]
  exact this

/-- **C166**: reading a bitmask with assertions has a defined result for every text. -/
theorem C166_defined {t : ETab} (h : TabOk t) (ty : ITy) (s : List Nat) : (∃ v, str2bmD t ty s = .ok v) ∨ str2bmD t ty s = .abort :=
  loopD_total h ty s s 0 {} rfl (bmInv_init s)

/-- **C166**: without assertions a text without blank items has a defined result. -/
theorem C166_release {t : ETab} (h : TabOk t) (ty : ITy) (s : List Nat) (hs : ¬ BlankItem s) :
    (∃ v, str2bm t ty s = .ok v) ∨ str2bm t ty s = .abort := by
  rw [← (C166_str2bm_partial h ty s).2 hs]
  exact C166_defined h ty s

/-- **C166**: writing a bitmask, and searching a name, fail no assertion; the buffer may be null but not empty. -/
theorem C166_write {t : ETab} (h : TabOk t) (w : Nat) (ot : EOff) (bits : Nat) (str : Option (List Nat)) (s : List Nat) :
    (str ≠ some [] → bm2strD t w ot bits str = bm2str t w ot bits str) ∧ bm2strD t w ot bits (some []) = .abort ∧
    findNameLenD t s = findNameLen t s :=
  ⟨bm2strD_eq h w ot bits str, rfl, findNameLenD_eq h s⟩

/-- **C166 is false**: `1 |` and `1 ||2` are read as 1 and 3 without assertions, and refused with. -/
theorem C166_refuted :
    str2bm letTab ⟨.w8, false⟩ (S "1 |") = .ok 1 ∧ str2bmD letTab ⟨.w8, false⟩ (S "1 |") = .abort ∧
    str2bm letTab ⟨.w8, false⟩ (S "1 ||2") = .ok 3 ∧ str2bmD letTab ⟨.w8, false⟩ (S "1 ||2") = .abort := by
  decide +kernel

example : ¬ BlankItem (S "red | 0x40|E::blue") ∧ str2bmD letTab ⟨.w8, true⟩ (S "red|0x40|E::blue") = .ok 69 := by
  rw [← bmBad_start]
  refine ⟨?_, by decide +kernel⟩
  simp [bmBad, S]

end C4
