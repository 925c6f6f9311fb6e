import Verif.Props.Bitmask
/-
Properties C76, C96 and C97: reading bitmasks from strings (`str2bm`).
-/
namespace C4
open Spec

/-! ### Specification -/

def Spec.BmLetter (c : Nat) : Prop := (97 ≤ c ∧ c ≤ 122) ∨ (65 ≤ c ∧ c ≤ 90) ∨ c = 95
def Spec.BmDigit (c : Nat) : Prop := 48 ≤ c ∧ c ≤ 57
def Spec.BmSkip (c : Nat) : Prop := c = 58 ∨ c = 32

/-- A name `str2bm` can read: a letter or underscore, then letters, underscores, colons, blanks. -/
def Spec.PlainName (n : List Nat) : Prop := ∃ c n', n = c :: n' ∧ BmLetter c ∧ ∀ d ∈ n', BmLetter d ∨ BmSkip d

/-- A number `str2bm` can read: decimal digits, possibly with an `x` after the first. -/
def Spec.PlainNumber (n : List Nat) : Prop :=
  ∃ c n', n = c :: n' ∧ BmDigit c ∧
    ((∀ d ∈ n', BmDigit d) ∨ ∃ x n'', n' = x :: n'' ∧ (x = 120 ∨ x = 88) ∧ ∀ d ∈ n'', BmDigit d)

/-- No name as shown is also taken for another value. -/
def Spec.ReadsBack (t : ETab) (ot : EOff) : Prop :=
  ∀ p ∈ t.syms, ∀ q ∈ t.syms, (shown t ot p.name <+: q.name ∨ Spells t q.name (shown t ot p.name)) → q.value = p.value

/-! ### Reading one item -/

/-- `n` is an item with value `v`. -/
inductive Item (t : ETab) (ty : ITy) (n : List Nat) (v : Nat) : Prop
  | name (h : PlainName n) (e : str2bmReadOne t ty n true = .ok v)
  | number (h : PlainNumber n) (e : str2bmReadOne t ty n false = .ok v)

theorem run_name {t : ETab} {ty : ITy} {s : List Nat} : ∀ (n rest : List Nat) (pc : Nat) (st : BmState),
    (∀ d ∈ n, BmLetter d ∨ BmSkip d) → st.started = true → st.num = false →
    str2bmLoop t ty s (n ++ rest) pc st = str2bmLoop t ty s rest (pc + n.length) st := by
  intro n
  induction n with
  | nil => intro rest pc st _ _ _; rfl
  | cons c n ih =>
    intro rest pc st h hs hn
    have e : pc + (c :: n).length = (pc + 1) + n.length := by simp; omega
    rw [e, ← ih rest (pc + 1) st (fun d hd => h d (.tail _ hd)) hs hn, List.cons_append, str2bmLoop]
    by_cases hl : (97 ≤ c ∧ c ≤ 122) ∨ (65 ≤ c ∧ c ≤ 90) ∨ c = 95
    · rw [if_pos hl, if_pos (.inl hn), if_pos hs]
    · have hk : c = 58 ∨ c = 32 := (h c (.head _)).resolve_left hl
      rw [if_neg hl, if_neg (by omega), if_pos hk]

theorem run_digits {t : ETab} {ty : ITy} {s : List Nat} : ∀ (n rest : List Nat) (pc : Nat) (st : BmState),
    (∀ d ∈ n, BmDigit d) → st.started = true → st.alnum = false →
    str2bmLoop t ty s (n ++ rest) pc st = str2bmLoop t ty s rest (pc + n.length) st := by
  intro n
  induction n with
  | nil => intro rest pc st _ _ _; rfl
  | cons c n ih =>
    intro rest pc st h hs hn
    have e : pc + (c :: n).length = (pc + 1) + n.length := by simp; omega
    rw [e, ← ih rest (pc + 1) st (fun d hd => h d (.tail _ hd)) hs hn, List.cons_append, str2bmLoop]
    have hc : 48 ≤ c ∧ c ≤ 57 := h c (.head _)
    rw [if_neg (by omega), if_pos hc, if_neg (by simp [hn]), if_pos hs]

/-- The loop goes over an item, noting where it started and of what kind it is. -/
theorem run_item {t : ETab} {ty : ITy} {s n : List Nat} {v : Nat} (h : Item t ty n v) (rest : List Nat) (pc val : Nat)
    (f : Option Nat) :
    ∃ al, str2bmReadOne t ty n al = .ok v ∧
      str2bmLoop t ty s (n ++ rest) pc { val := val, f := f } =
        str2bmLoop t ty s rest (pc + n.length)
          { val := val, started := true, alnum := al, num := !al, f := some pc } := by
  cases h with
  | name h e =>
    refine ⟨true, e, ?_⟩
    obtain ⟨c, n', rfl, hc, hn⟩ := h
    have e : pc + (c :: n').length = (pc + 1) + n'.length := by simp; omega
    rw [e, ← run_name n' rest (pc + 1) _ hn rfl rfl, List.cons_append, str2bmLoop]
    have hc : (97 ≤ c ∧ c ≤ 122) ∨ (65 ≤ c ∧ c ≤ 90) ∨ c = 95 := hc
    rw [if_pos hc, if_pos (.inl rfl)]
    simp
  | number h e =>
    refine ⟨false, e, ?_⟩
    obtain ⟨c, n', rfl, hc, hn⟩ := h
    have hc : 48 ≤ c ∧ c ≤ 57 := hc
    have e : pc + (c :: n').length = (pc + 1) + n'.length := by simp; omega
    rw [e, List.cons_append, str2bmLoop, if_neg (by omega), if_pos hc]
    simp only [Bool.false_eq_true, if_false]
    rcases hn with hn | ⟨x, n'', rfl, hx, hn⟩
    · exact run_digits n' rest (pc + 1) _ hn rfl rfl
    · have e2 : pc + 1 + (x :: n'').length = (pc + 1 + 1) + n''.length := by simp; omega
      rw [e2, ← run_digits n'' rest (pc + 1 + 1) _ hn rfl rfl, List.cons_append, str2bmLoop]
      rw [if_pos (by omega), if_pos (.inr ⟨by simp [bmAtOne], hx⟩), if_pos rfl]
      rfl

/-- The string is the items joined by `|`, maybe terminated. -/
theorem str2bm_items {t : ETab} {ty : ITy} {s tail : List Nat} (ht : tail = [] ∨ tail = [0]) :
    ∀ (l : List (List Nat × Nat)), l ≠ [] → (∀ x ∈ l, Item t ty x.1 x.2) → ∀ (pre : List Nat) (val : Nat) (f : Option Nat),
    s = pre ++ (separated [124] (l.map (·.1)) ++ tail) →
    str2bmLoop t ty s (separated [124] (l.map (·.1)) ++ tail) pre.length { val := val, f := f } =
      .ok (val ||| (l.map (·.2)).foldr (· ||| ·) 0) := by
  intro l
  induction l with
  | nil => intro h; exact absurd rfl h
  | cons x l ih =>
    intro _ hi pre val f hs
    obtain ⟨al, e1, e2⟩ := run_item (s := s) (hi x (.head _))
      (match l with | [] => tail | y :: l => 124 :: (separated [124] ((y :: l).map (·.1)) ++ tail)) pre.length val f
    have hread : ∀ rest, s = pre ++ (x.1 ++ rest) → ∀ st : BmState, st.f = some pre.length → st.alnum = al →
        bmRead t ty s st (pre.length + x.1.length) = .ok x.2 := by
      intro rest e st hf ha
      unfold bmRead
      rw [hf, e]
      simp only [List.drop_left, Nat.add_sub_cancel_left, List.take_left, ha]
      exact e1
    cases l with
    | nil =>
      simp only [List.map_cons, List.map_nil, separated, List.foldr_cons, List.foldr_nil, Nat.or_zero] at *
      rw [e2]
      rcases ht with rfl | rfl
      · rw [str2bmLoop]
        simp only []
        rw [hread _ hs _ rfl rfl, Res.ok_bind]
      · rw [str2bmLoop, if_neg (by omega), if_neg (by omega), if_neg (by omega), if_pos (by omega), hread _ hs _ rfl rfl,
          Res.ok_bind, if_pos rfl]
    | cons y l =>
      have es : separated [124] ((x :: y :: l).map (·.1)) ++ tail =
          x.1 ++ 124 :: (separated [124] ((y :: l).map (·.1)) ++ tail) := by simp [separated]
      rw [es] at hs ⊢
      simp only [] at e2
      rw [e2, str2bmLoop, if_neg (by omega), if_neg (by omega), if_neg (by omega), if_pos (by omega), hread _ hs _ rfl rfl,
        Res.ok_bind, if_neg (by omega)]
      have := ih (by simp) (fun z hz => hi z (.tail _ hz)) (pre ++ x.1 ++ [124]) (val ||| x.2) (some pre.length)
        (by rw [hs]; simp)
      have el : (pre ++ x.1 ++ [124]).length = pre.length + x.1.length + 1 := by simp; omega
      rw [el] at this
      rw [this]
      simp [Nat.or_assoc]

theorem plain_noNul {n : List Nat} (h : PlainName n) : ∀ c ∈ n, c ≠ 0 := by
  obtain ⟨c, n', rfl, hc, hn⟩ := h
  intro d hd
  unfold BmLetter BmSkip at *
  rcases List.mem_cons.mp hd with rfl | hd
  · omega
  · have := hn d hd; omega

theorem shown_spells (t : ETab) (ot : EOff) (name : List Nat) : Spells t name (shown t ot name) := by
  unfold Spells shown
  cases ot with
  | none => exact .inl rfl
  | cls =>
    by_cases hz : t.cls = 0
    · simp [hz]
    · exact .inr (.inl ⟨by omega, rfl⟩)
  | pfx =>
    simp only []
    by_cases hz : t.pfx = 0
    · rw [if_pos hz]
      by_cases hz : t.cls = 0
      · simp [hz]
      · exact .inr (.inl ⟨by omega, rfl⟩)
    · rw [if_neg hz]
      exact .inr (.inr ⟨by omega, rfl⟩)

/-- A symbol's name is an item with its value. -/
theorem item_sym {t : ETab} (h : TabOk t) {ot : EOff} (hr : ReadsBack t ot) {p : ESym} (hp : p ∈ t.syms)
    (hn : PlainName (shown t ot p.name)) (ty : ITy) : Item t ty (shown t ot p.name) p.value := by
  refine .name hn ?_
  unfold str2bmReadOne
  rw [if_pos rfl, findNameLen_eq h (plain_noNul hn), Res.ok_bind]
  cases hf : t.syms.find? fun q => decide (SpellsLen t q.name (shown t ot p.name)) with
  | none =>
    have := List.find?_eq_none.mp hf p hp
    exact absurd (decide_eq_true (.inr (shown_spells t ot p.name))) this
  | some q =>
    have h1 := List.find?_some hf
    simp only [decide_eq_true_eq] at h1
    simp only [getSym]
    rw [Res.ok_bind, hr p hp q (List.mem_of_find?_eq_some hf) h1]

theorem readOne_zero (t : ETab) (ty : ITy) : str2bmReadOne t ty [48] false = .ok 0 := by
  have h : firstInt ty [48] = .ok (some (1, 0)) := by
    obtain ⟨w, sgn⟩ := ty
    cases w <;> cases sgn <;> decide +kernel
  unfold str2bmReadOne
  rw [if_neg (by simp), uncat, h, Res.ok_bind]
  simp only [uncat]
  rw [Res.ok_bind, Res.ok_bind]
  simp

/-! ### C76 -/

/-- **C76 is false**: a symbol with a digit in its name is written but cannot be read. -/
theorem C76_refuted :
    let t : ETab := ⟨[⟨1, S "bit1"⟩], 0, 0⟩
    bm2str t 8 .pfx 1 (some (List.replicate 8 9)) = .ok (5, some (S "bit1" ++ [0, 9, 9, 9])) ∧
      str2bm t ⟨.w8, false⟩ (S "bit1") = .abort := by decide +kernel

/-- **C76 is false**: a symbol whose name is the start of the name of an earlier one is read as that one. -/
theorem C76_refuted_prefix :
    let t : ETab := ⟨[⟨1, S "AB"⟩, ⟨2, S "A"⟩], 0, 0⟩
    bm2str t 8 .pfx 2 (some (List.replicate 2 9)) = .ok (2, some (S "A" ++ [0])) ∧
      str2bm t ⟨.w8, false⟩ (S "A") = .ok 1 := by decide +kernel

/-- **C76**, what holds: if all names as shown start with a letter or underscore and have only letters, underscores, colons and
blanks, and none of them is another spelling or the start of the full name of a symbol with another value, then what `bm2str` wrote
is read as the same bits, with and without the terminator.  Missing: names with digits, ambiguous names (false, see above). -/
theorem C76_roundtrip_partial {t : ETab} (h : TabOk t) {ot : EOff} (hr : ReadsBack t ot)
    (hp : ∀ p ∈ t.syms, PlainName (shown t ot p.name)) {w : Nat} (ty : ITy) {bits : Nat} (hb : bits < 2 ^ w)
    {buf buf' : List Nat} {n : Nat} (hbuf : buf ≠ []) (e : bm2str t w ot bits (some buf) = .ok (n, some buf')) :
    str2bm t ty (buf'.take n) = .ok bits ∧ str2bm t ty (buf'.take (n - 1)) = .ok bits := by
  rcases C75_bm2str h hb ot with ⟨chosen, ⟨hsub, _, _, hor⟩, _, h2⟩ | ⟨_, h2⟩
  · rw [h2 buf hbuf] at e
    split at e
    · injection e with e
      injection e with e1 e2
      injection e2 with e2
      subst e1 e2
      have ht : ∀ tail, tail = [] ∨ tail = [0] → str2bm t ty (maskText t ot chosen ++ tail) = .ok bits := by
        intro tail htail
        have key : ∀ l : List (List Nat × Nat), l ≠ [] → (∀ x ∈ l, Item t ty x.1 x.2) →
            str2bm t ty (separated [124] (l.map (·.1)) ++ tail) = .ok ((l.map (·.2)).foldr (· ||| ·) 0) := by
          intro l hl hi
          have := str2bm_items htail l hl hi [] 0 none rfl
          rw [Nat.zero_or] at this
          exact this
        unfold maskText
        cases chosen with
        | nil =>
          simp only []
          have hb0 : bits = 0 := by rw [← hor]; rfl
          cases hf : t.syms.find? fun p => decide (p.value = 0) with
          | none =>
            have := key [([48], 0)] (by simp) (by
              intro x hx
              rw [List.mem_singleton.mp hx]
              exact .number ⟨48, [], rfl, ⟨by omega, by omega⟩, .inl (by simp)⟩ (readOne_zero t ty))
            rw [hb0]
            exact this
          | some z =>
            have h1 := List.find?_some hf
            simp only [decide_eq_true_eq] at h1
            have hz := List.mem_of_find?_eq_some hf
            have := key [(shown t ot z.name, z.value)] (by simp) (by
              intro x hx
              rw [List.mem_singleton.mp hx]
              exact item_sym h hr hz (hp z hz) ty)
            rw [hb0, ← h1]
            simpa [separated] using this
        | cons p ps =>
          simp only []
          have := key ((p :: ps).map fun p => (shown t ot p.name, p.value)) (by simp) (by
            intro x hx
            obtain ⟨q, hq, rfl⟩ := List.mem_map.mp hx
            exact item_sym h hr (hsub.mem hq) (hp q (hsub.mem hq)) ty)
          rw [List.map_map, List.map_map] at this
          rw [← hor]
          exact this
      constructor
      · have := ht [0] (.inr rfl)
        have e : (maskText t ot chosen ++ 0 :: buf.drop ((maskText t ot chosen).length + 1)).take
            ((maskText t ot chosen).length + 1) = maskText t ot chosen ++ [0] := by
          rw [List.take_append, List.take_of_length_le (by omega)]
          simp
        rw [e]; exact this
      · have := ht [] (.inl rfl)
        rw [List.append_nil] at this
        rw [Nat.add_sub_cancel, List.take_left' rfl]
        exact this
    · cases e
  · rw [h2 _ (by simpa using hbuf)] at e
    cases e

def letTab : ETab := ⟨[⟨0, S "E::none"⟩, ⟨1, S "E::red"⟩, ⟨2, S "E::green"⟩, ⟨4, S "E::blue"⟩, ⟨7, S "E::white"⟩], 3, 0⟩

example : TabOk letTab ∧ ReadsBack letTab .cls ∧ ∀ p ∈ letTab.syms, PlainName (shown letTab .cls p.name) := by
  have hm : ∀ p, p ∈ letTab.syms ↔ p = ⟨0, S "E::none"⟩ ∨ p = ⟨1, S "E::red"⟩ ∨ p = ⟨2, S "E::green"⟩ ∨ p = ⟨4, S "E::blue"⟩ ∨
      p = ⟨7, S "E::white"⟩ := by simp [letTab]
  refine ⟨?_, ?_, ?_⟩
  · intro p hp
    rcases (hm p).mp hp with rfl | rfl | rfl | rfl | rfl <;> decide
  · intro p hp q hq hs
    rcases (hm p).mp hp with rfl | rfl | rfl | rfl | rfl <;> rcases (hm q).mp hq with rfl | rfl | rfl | rfl | rfl <;>
      first
      | rfl
      | (exfalso; revert hs; decide +kernel)
  · have hd : ∀ n : List Nat, n ≠ [] → (∀ c ∈ n, 97 ≤ c ∧ c ≤ 122) → PlainName n := by
      intro n h0 hn
      cases n with
      | nil => exact absurd rfl h0
      | cons c n =>
        exact ⟨c, n, rfl, .inl (hn c (.head _)), fun d hd => .inl (.inl (hn d (.tail _ hd)))⟩
    intro p hp
    rcases (hm p).mp hp with rfl | rfl | rfl | rfl | rfl <;> exact hd _ (by decide +kernel) (by decide +kernel)

example : bm2str letTab 8 .cls 6 (some (List.replicate 12 9)) = .ok (11, some (S "green|blue" ++ [0, 9])) ∧
    str2bm letTab ⟨.w8, false⟩ (S "green|blue") = .ok 6 ∧ str2bm letTab ⟨.w8, false⟩ (S "green|blue" ++ [0]) = .ok 6 := by
  decide +kernel

/-! ### C97 -/

/-- **C97 is false**: hexadecimal numbers with hexadecimal letters are rejected. -/
theorem C97_refuted :
    str2bm letTab ⟨.w8, false⟩ (S "0x1f") = .abort ∧ str2bm letTab ⟨.w8, false⟩ (S "31") = .ok 31 := by decide +kernel

/-- **C97**, what holds: a list of names and numbers, joined by `|`, is read as the OR of the values, where the numbers may be decimal
or hexadecimal if they have only decimal digits.  Missing: other hexadecimal numbers (false, see `C97_refuted`). -/
theorem C97_numbers_partial {t : ETab} (h : TabOk t) {ot : EOff} (hr : ReadsBack t ot) (ty : ITy)
    (l : List (List Nat × Nat)) (hl : l ≠ [])
    (hi : ∀ x ∈ l, (∃ p ∈ t.syms, x.1 = shown t ot p.name ∧ x.2 = p.value ∧ PlainName x.1) ∨
      (NumText ty x.2 x.1 ∧ PlainNumber x.1)) :
    str2bm t ty (separated [124] (l.map (·.1))) = .ok ((l.map (·.2)).foldr (· ||| ·) 0) := by
  have := str2bm_items (t := t) (ty := ty) (.inl rfl) l hl (by
    intro x hx
    rcases hi x hx with ⟨p, hp, e1, e2, hn⟩ | ⟨hn, hd⟩
    · rw [e1, e2]
      exact item_sym h hr hp (e1 ▸ hn) ty
    · refine .number hd ?_
      have e := firstInt_text hn (rest := []) (by intro c hc; cases hc)
      rw [List.append_nil] at e
      unfold str2bmReadOne
      rw [if_neg (by simp), uncat, e, Res.ok_bind]
      simp only [uncat]
      rw [Res.ok_bind, Res.ok_bind]
      simp only []
      congr 1
      have hb := hn.2.1
      have : ((x.2 : Int)) < 2 ^ ty.w.bits := by
        obtain ⟨w, sgn⟩ := ty
        revert hb
        unfold ITy.max
        cases w <;> cases sgn <;> simp [W.bits] <;> omega
      rw [Int.emod_eq_of_lt (by omega) this, Int.toNat_natCast]) [] 0 none rfl
  rw [Nat.zero_or, List.append_nil] at this
  exact this

example : str2bm letTab ⟨.w8, false⟩ (S "red|0x40|E::blue|8") = .ok 77 := by decide +kernel
example : NumText ⟨.w8, false⟩ 64 (S "0x40") ∧ PlainNumber (S "0x40") := by
  refine ⟨⟨by decide, by decide, 16, 0, by decide, by decide +kernel⟩, 48, _, rfl, ⟨by omega, by omega⟩, .inr ⟨120, _, rfl, .inl rfl, ?_⟩⟩
  show ∀ d ∈ [52, 48], 48 ≤ d ∧ d ≤ 57
  decide

/-! ### C96 -/

/-- **C96 is false**: an empty first item makes the code subtract a null pointer from a pointer and read from it. -/
theorem C96_refuted : str2bm letTab ⟨.w8, false⟩ (S "|red") = .ub ∧ str2bm letTab ⟨.w8, false⟩ [0] = .ub := by decide +kernel

theorem strnEq_total : ∀ (s a : List Nat), ∃ b, strnEq a s s.length = .ok b := by
  intro s
  induction s with
  | nil => intro a; exact ⟨true, by cases a <;> rfl⟩
  | cons c s ih =>
    intro a
    cases a with
    | nil => exact ⟨_, rfl⟩
    | cons x a =>
      simp only [List.length_cons, strnEq]
      split
      · exact ih a
      · exact ⟨_, rfl⟩

theorem cmpLenLoop_total {t : ETab} {name : List Nat} (h : ∀ e, eoffs t e < name.length) (s : List Nat) (es : List EOff) :
    ∃ b, cmpLenLoop t name s es = .ok b := by
  induction es with
  | nil => exact ⟨_, rfl⟩
  | cons e es ih =>
    obtain ⟨b, hb⟩ := ih
    rw [cmpLenLoop, hb]
    by_cases hc : eoffs t e > 0
    · simp only [if_pos hc]
      by_cases hl : s.length ≥ name.length - eoffs t e
      · have hm : (if s.length > name.length - eoffs t e then s.length else name.length - eoffs t e) = s.length := by
          split <;> omega
        rw [hm, if_pos (Nat.le_refl _)]
        unfold strAt
        rw [if_pos (Nat.le_of_lt (h e)), Res.ok_bind]
        obtain ⟨r, hr⟩ := strnEq_total s (name.drop (eoffs t e))
        rw [hr, Res.ok_bind]
        split
        · exact ⟨_, rfl⟩
        · exact ⟨_, rfl⟩
      · rw [if_neg (by split <;> omega), Res.ok_bind, if_neg (by simp)]
        exact ⟨_, rfl⟩
    · exact ⟨b, if_neg hc⟩

theorem findNameLen_total {t : ETab} (h : TabOk t) (s : List Nat) : ∃ r, findNameLen t s = .ok r := by
  have key : ∀ l : List ESym, (∀ p ∈ l, ∃ b, symCmpLen t p.name s = .ok b) → ∃ r, findSym (fun n => symCmpLen t n s) l = .ok r := by
    intro l
    induction l with
    | nil => intro _; exact ⟨none, rfl⟩
    | cons p l ih =>
      intro hl
      obtain ⟨b, hb⟩ := hl p (.head _)
      unfold findSym
      rw [hb, Res.ok_bind]
      cases b with
      | true => exact ⟨_, rfl⟩
      | false => exact ih fun q hq => hl q (.tail _ hq)
  apply key
  intro p hp
  unfold symCmpLen
  obtain ⟨b, hb⟩ := strnEq_total s p.name
  rw [hb, Res.ok_bind]
  cases b with
  | true => exact ⟨_, rfl⟩
  | false => exact cmpLenLoop_total (eoffs_le (h p hp)) s _

theorem readOne_total {t : ETab} (h : TabOk t) (ty : ITy) (s : List Nat) (al : Bool) :
    (∃ v, str2bmReadOne t ty s al = .ok v) ∨ str2bmReadOne t ty s al = .abort := by
  unfold str2bmReadOne
  cases al with
  | true =>
    obtain ⟨r, hr⟩ := findNameLen_total h s
    rw [if_pos rfl, hr, Res.ok_bind]
    cases r with
    | none => exact .inr rfl
    | some p => exact .inl ⟨_, rfl⟩
  | false =>
    have hf : ∃ r, firstInt ty s = .ok r := by
      unfold firstInt
      split
      · obtain ⟨r, e, _⟩ := C18_atoi_first ty s; exact ⟨r, e⟩
      · obtain ⟨r, e, _⟩ := C18_atou_first ty s; exact ⟨r, e⟩
    obtain ⟨r, hr⟩ := hf
    rw [if_neg (by simp), uncat, hr, Res.ok_bind]
    cases r with
    | none => exact .inr rfl
    | some x => exact .inl ⟨_, rfl⟩

theorem loop_total {t : ETab} (h : TabOk t) (ty : ITy) (s : List Nat) : ∀ (rest : List Nat) (pc : Nat) (st : BmState),
    st.f ≠ none → (∃ v, str2bmLoop t ty s rest pc st = .ok v) ∨ str2bmLoop t ty s rest pc st = .abort := by
  intro rest
  induction rest with
  | nil =>
    intro pc st hf
    rw [str2bmLoop]
    cases hs : st.f with
    | none => exact absurd hs hf
    | some f =>
      simp only [bmRead, hs]
      rcases readOne_total h ty ((s.drop f).take (pc - f)) st.alnum with ⟨v, e⟩ | e
      · rw [e]; exact .inl ⟨_, rfl⟩
      · rw [e]; exact .inr rfl
  | cons c rest ih =>
    intro pc st hf
    rw [str2bmLoop]
    split
    · split
      · apply ih
        split
        · exact hf
        · simp
      · exact .inr rfl
    · split
      · split
        · exact .inr rfl
        · apply ih
          split
          · exact hf
          · simp
      · split
        · exact ih _ _ hf
        · split
          · cases hs : st.f with
            | none => exact absurd hs hf
            | some f =>
              simp only [bmRead, hs]
              rcases readOne_total h ty ((s.drop f).take (pc - f)) st.alnum with ⟨v, e⟩ | e
              · rw [e, Res.ok_bind]
                split
                · exact .inl ⟨_, rfl⟩
                · apply ih; simp
              · rw [e]; exact .inr rfl
          · exact .inr rfl

/-- **C96**, what holds: unless the first character that is not a blank or colon is `|` or a terminator, `str2bm` returns a value
or reports an error, whatever the string.  Missing: an empty first item (false, see `C96_refuted`). -/
theorem C96_safe_partial {t : ETab} (h : TabOk t) (ty : ITy) (skip rest : List Nat) (hs : ∀ c ∈ skip, BmSkip c)
    (hr : ∀ c rest', rest = c :: rest' → c ≠ 124 ∧ c ≠ 0 ∧ ¬ BmSkip c) :
    (∃ v, str2bm t ty (skip ++ rest) = .ok v) ∨ str2bm t ty (skip ++ rest) = .abort := by
  have key : ∀ (s skip rest : List Nat) (pc : Nat), (∀ c ∈ skip, BmSkip c) → (∀ c rest', rest = c :: rest' → c ≠ 124 ∧ c ≠ 0 ∧ ¬ BmSkip c) →
      (∃ v, str2bmLoop t ty s (skip ++ rest) pc {} = .ok v) ∨ str2bmLoop t ty s (skip ++ rest) pc {} = .abort := by
    intro s skip
    induction skip with
    | nil =>
      intro rest pc _ hr
      cases rest with
      | nil => exact .inl ⟨_, rfl⟩
      | cons c rest =>
        obtain ⟨h1, h2, h3⟩ := hr c rest rfl
        rw [List.nil_append, str2bmLoop]
        split
        · rw [if_pos (.inl rfl)]
          exact loop_total h ty s _ _ _ (by simp)
        · split
          · exact loop_total h ty s _ _ _ (by simp)
          · rw [if_neg (c := c = 58 ∨ c = 32) h3, if_neg (by omega)]
            exact .inr rfl
    | cons c skip ih =>
      intro rest pc hs hr
      have hc : c = 58 ∨ c = 32 := hs c (.head _)
      rw [List.cons_append, str2bmLoop, if_neg (by omega), if_neg (by omega), if_pos hc]
      exact ih rest _ (fun d hd => hs d (.tail _ hd)) hr
  exact key _ skip rest 0 hs hr

example : str2bm letTab ⟨.w8, false⟩ (S " :red||") = .abort ∧ str2bm letTab ⟨.w8, false⟩ (S " : ") = .ok 0 := by decide +kernel

end C4
