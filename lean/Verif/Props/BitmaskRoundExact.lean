import Verif.Props.BitmaskExact
/-
Property C76, exactly: what `str2bm` makes of what `bm2str` wrote, for tables whose names are identifiers.
-/
namespace C4
open Spec

/-- A name as in C++ source: a letter or underscore, then letters, underscores, digits and colons (or blanks). -/
def Spec.IdentName (n : List Nat) : Prop := ∃ c n', n = c :: n' ∧ BmLetter c ∧ ∀ d ∈ n', BmLetter d ∨ BmSkip d ∨ BmDigit d

/-- The symbols whose names `bm2str` writes: those taken from the end of the table on; if none, the first of value zero. -/
def Spec.writtenSyms (t : ETab) (bits : Nat) : List ESym :=
  match taken bits t.syms with
  | [] => (t.syms.find? fun p => decide (p.value = 0)).toList
  | l => l

/-- The value of the first symbol of the table that is spelled like the text or whose name begins with it. -/
def Spec.readAs (t : ETab) (s : List Nat) : Nat := ((t.syms.find? fun q => decide (SpellsLen t q.name s)).map (·.value)).getD 0

theorem item_read {t : ETab} (h : TabOk t) {ot : EOff} {p : ESym} (hp : p ∈ t.syms) (hn : PlainName (shown t ot p.name)) (ty : ITy) :
    Item t ty (shown t ot p.name) (readAs t (shown t ot p.name)) := by
  refine .name hn ?_
  unfold str2bmReadOne readAs
  rw [if_pos rfl, findNameLen_eq h (plain_noNul hn), Res.ok_bind]
  cases hf : t.syms.find? fun q => decide (SpellsLen t q.name (shown t ot p.name)) with
  | none =>
    have := List.find?_eq_none.mp hf p hp
    exact absurd (decide_eq_true (.inr (shown_spells t ot p.name))) this
  | some q => rfl

/-- An identifier with a digit: letters first, then a digit. -/
theorem ident_digit {n : List Nat} (h : IdentName n) (hp : ¬ PlainName n) :
    ∃ c a d b, n = c :: a ++ d :: b ∧ BmLetter c ∧ (∀ x ∈ a, BmLetter x ∨ BmSkip x) ∧ BmDigit d := by
  obtain ⟨c, n', rfl, hc, hn⟩ := h
  have key : ∀ l : List Nat, (∀ d ∈ l, BmLetter d ∨ BmSkip d ∨ BmDigit d) → (∀ d ∈ l, BmLetter d ∨ BmSkip d) ∨
      ∃ a d b, l = a ++ d :: b ∧ (∀ x ∈ a, BmLetter x ∨ BmSkip x) ∧ BmDigit d := by
    intro l
    induction l with
    | nil => intro _; left; intro d hd; cases hd
    | cons x l ih =>
      intro hl
      rcases hl x (.head _) with g | g | g
      · rcases ih (fun d hd => hl d (.tail _ hd)) with i | ⟨a, d, b, rfl, i1, i2⟩
        · left; intro d hd; rcases List.mem_cons.mp hd with rfl | hd; exacts [.inl g, i d hd]
        · right; refine ⟨x :: a, d, b, rfl, ?_, i2⟩; intro y hy; rcases List.mem_cons.mp hy with rfl | hy; exacts [.inl g, i1 y hy]
      · rcases ih (fun d hd => hl d (.tail _ hd)) with i | ⟨a, d, b, rfl, i1, i2⟩
        · left; intro d hd; rcases List.mem_cons.mp hd with rfl | hd; exacts [.inr g, i d hd]
        · right; refine ⟨x :: a, d, b, rfl, ?_, i2⟩; intro y hy; rcases List.mem_cons.mp hy with rfl | hy; exacts [.inr g, i1 y hy]
      · exact .inr ⟨[], x, l, rfl, (by intro y hy; cases hy), g⟩
  rcases key n' hn with g | ⟨a, d, b, rfl, g1, g2⟩
  · exact absurd ⟨c, n', rfl, hc, g⟩ hp
  · exact ⟨c, a, d, b, rfl, hc, g1, g2⟩

/-- A name with a digit is refused. -/
theorem loop_digit {t : ETab} {ty : ITy} {s n : List Nat} (h : IdentName n) (hp : ¬ PlainName n) (rest : List Nat) (pc val : Nat)
    (f : Option Nat) : str2bmLoop t ty s (n ++ rest) pc { val := val, f := f } = .abort := by
  obtain ⟨c, a, d, b, rfl, hc, ha, hd⟩ := ident_digit h hp
  have hc : (97 ≤ c ∧ c ≤ 122) ∨ (65 ≤ c ∧ c ≤ 90) ∨ c = 95 := hc
  have hd : 48 ≤ d ∧ d ≤ 57 := hd
  rw [List.cons_append, List.cons_append, str2bmLoop, if_pos hc, if_pos (.inl rfl), List.append_assoc, run_name a _ _ _ ha rfl rfl,
    List.cons_append, str2bmLoop, if_neg (by omega), if_pos hd]
  rfl

theorem str2bm_items_digit {t : ETab} {ty : ITy} {s tail : List Nat} :
    ∀ (l : List (List Nat)), (∃ x ∈ l, ¬ PlainName x) → (∀ x ∈ l, IdentName x ∧ (PlainName x → ∃ v, Item t ty x v)) →
    ∀ (pre : List Nat) (val : Nat) (f : Option Nat), s = pre ++ (separated [124] l ++ tail) →
    str2bmLoop t ty s (separated [124] l ++ tail) pre.length { val := val, f := f } = .abort := by
  intro l
  induction l with
  | nil => rintro ⟨x, hx, _⟩; cases hx
  | cons x l ih =>
    intro hex hall pre val f hs
    by_cases hx : PlainName x
    · have hex' : ∃ y ∈ l, ¬ PlainName y := by
        obtain ⟨y, hy, g⟩ := hex
        rcases List.mem_cons.mp hy with rfl | hy
        · exact absurd hx g
        · exact ⟨y, hy, g⟩
      cases l with
      | nil => obtain ⟨y, hy, _⟩ := hex'; cases hy
      | cons y l =>
        obtain ⟨v, hv⟩ := (hall x (.head _)).2 hx
        have es : separated [124] (x :: y :: l) ++ tail = x ++ 124 :: (separated [124] (y :: l) ++ tail) := by simp [separated]
        rw [es] at hs ⊢
        obtain ⟨al, e1, e2⟩ := run_item (s := s) hv (124 :: (separated [124] (y :: l) ++ tail)) pre.length val f
        have hread : ∀ st : BmState, st.f = some pre.length → st.alnum = al → bmRead t ty s st (pre.length + x.length) = .ok v := by
          intro st hf ha
          unfold bmRead
          rw [hf, hs]
          simp only [List.drop_left, Nat.add_sub_cancel_left, List.take_left, ha]
          exact e1
        rw [e2, str2bmLoop, if_neg (by omega), if_neg (by omega), if_neg (by omega), if_pos (by omega), hread _ rfl rfl,
          Res.ok_bind, if_neg (by omega)]
        have := ih hex' (fun z hz => hall z (.tail _ hz)) (pre ++ x ++ [124]) (val ||| v) (some pre.length) (by rw [hs]; simp)
        have el : (pre ++ x ++ [124]).length = pre.length + x.length + 1 := by simp; omega
        rw [el] at this
        exact this
    · have : ∃ rest, separated [124] (x :: l) ++ tail = x ++ rest := by
        cases l with
        | nil => exact ⟨tail, by simp [separated]⟩
        | cons y l => exact ⟨124 :: (separated [124] (y :: l) ++ tail), by simp [separated]⟩
      obtain ⟨rest, er⟩ := this
      rw [er]
      exact loop_digit (hall x (.head _)).1 hx rest pre.length val f

/-- **C76**, exactly, for names that are identifiers as shown: what `bm2str` wrote is refused by `str2bm` if one of the names written has a
digit; otherwise the result is the OR of the values of the first symbols that are spelled like, or begin with, the names written. -/
theorem C76_exact {t : ETab} (h : TabOk t) {ot : EOff} (hid : ∀ p ∈ t.syms, IdentName (shown t ot p.name)) {w : Nat} (ty : ITy)
    {bits : Nat} (hb : bits < 2 ^ w) {buf buf' : List Nat} {n : Nat} (hbuf : buf ≠ [])
    (e : bm2str t w ot bits (some buf) = .ok (n, some buf')) {k : Nat} (hk : k = n ∨ k = n - 1) :
    ((∃ p ∈ writtenSyms t bits, ¬ PlainName (shown t ot p.name)) → str2bm t ty (buf'.take k) = .abort) ∧
    ((∀ p ∈ writtenSyms t bits, PlainName (shown t ot p.name)) →
      str2bm t ty (buf'.take k) = .ok (((writtenSyms t bits).map fun p => readAs t (shown t ot p.name)).foldr (· ||| ·) 0)) := by
  rw [(C95_exact h hb ot).2 buf hbuf] at e
  have hmem : ∀ p ∈ writtenSyms t bits, p ∈ t.syms := by
    have htk : ∀ l : List ESym, ∀ p ∈ taken bits l, p ∈ l := by
      intro l
      induction l with
      | nil => intro p hp; exact hp
      | cons q l ih =>
        intro p hp
        rw [taken] at hp
        split at hp
        · rcases List.mem_cons.mp hp with rfl | hp
          · exact .head _
          · exact .tail _ (ih p hp)
        · exact .tail _ (ih p hp)
    intro p hp
    unfold writtenSyms at hp
    split at hp
    · rw [Option.mem_toList] at hp
      exact List.mem_of_find?_eq_some hp
    · exact htk _ p hp
  have htext : maskText t ot (taken bits t.syms) =
      if writtenSyms t bits = [] then [48] else separated [124] ((writtenSyms t bits).map fun p => shown t ot p.name) := by
    unfold writtenSyms maskText
    cases taken bits t.syms with
    | nil =>
      simp only []
      cases t.syms.find? fun p => decide (p.value = 0) <;> simp [separated]
    | cons p l => simp
  split at e
  · injection e with e
    injection e with e1 e2
    injection e2 with e2
    subst e1 e2
    have htail : ∃ tail, (tail = [] ∨ tail = [0]) ∧
        (maskText t ot (taken bits t.syms) ++ 0 :: buf.drop ((maskText t ot (taken bits t.syms)).length + 1)).take k =
          maskText t ot (taken bits t.syms) ++ tail := by
      rcases hk with rfl | rfl
      · refine ⟨[0], .inr rfl, ?_⟩
        rw [List.take_append, List.take_of_length_le (by omega)]
        simp
      · refine ⟨[], .inl rfl, ?_⟩
        rw [Nat.add_sub_cancel, List.take_left' rfl, List.append_nil]
    obtain ⟨tail, ht, et⟩ := htail
    rw [et, htext]
    constructor
    · rintro ⟨p, hp, hnp⟩
      have hne : writtenSyms t bits ≠ [] := by intro g; rw [g] at hp; cases hp
      rw [if_neg hne]
      exact str2bm_items_digit ((writtenSyms t bits).map fun p => shown t ot p.name) ⟨_, List.mem_map.mpr ⟨p, hp, rfl⟩, hnp⟩ (by
        intro x hx
        obtain ⟨q, hq, rfl⟩ := List.mem_map.mp hx
        exact ⟨hid q (hmem q hq), fun g => ⟨_, item_read h (hmem q hq) g ty⟩⟩) [] 0 none rfl
    · intro hall
      by_cases hne : writtenSyms t bits = []
      · rw [if_pos hne, hne]
        have := str2bm_items (s := [48] ++ tail) ht [([48], 0)] (by simp) (by
          intro x hx
          rw [List.mem_singleton.mp hx]
          exact Item.number (t := t) (ty := ty) ⟨48, [], rfl, ⟨by omega, by omega⟩, .inl (by simp)⟩ (readOne_zero t ty)) [] 0 none (by simp [separated])
        simpa [separated, str2bm] using this
      · rw [if_neg hne]
        have := str2bm_items (t := t) (ty := ty) (s := separated [124] ((writtenSyms t bits).map fun p => shown t ot p.name) ++ tail) ht
          ((writtenSyms t bits).map fun p => (shown t ot p.name, readAs t (shown t ot p.name))) (by simpa using hne) (by
            intro x hx
            obtain ⟨q, hq, rfl⟩ := List.mem_map.mp hx
            exact item_read h (hmem q hq) (hall q hq) ty) [] 0 none (by simp [List.map_map, Function.comp_def])
        rw [Nat.zero_or, List.map_map, List.map_map] at this
        exact this
  · cases e

/-- **C76**: so for names that are identifiers the round trip gives the bits back exactly if no name written has a digit and the values
read for the names OR together to the bits. -/
theorem C76_roundtrip_iff {t : ETab} (h : TabOk t) {ot : EOff} (hid : ∀ p ∈ t.syms, IdentName (shown t ot p.name)) {w : Nat} (ty : ITy)
    {bits : Nat} (hb : bits < 2 ^ w) {buf buf' : List Nat} {n : Nat} (hbuf : buf ≠ [])
    (e : bm2str t w ot bits (some buf) = .ok (n, some buf')) :
    str2bm t ty (buf'.take n) = .ok bits ↔ (∀ p ∈ writtenSyms t bits, PlainName (shown t ot p.name)) ∧
      ((writtenSyms t bits).map fun p => readAs t (shown t ot p.name)).foldr (· ||| ·) 0 = bits := by
  obtain ⟨h1, h2⟩ := C76_exact h hid ty hb hbuf e (.inl rfl)
  by_cases hall : ∀ p ∈ writtenSyms t bits, PlainName (shown t ot p.name)
  · rw [h2 hall]
    constructor
    · intro g; injection g with g; exact ⟨hall, g⟩
    · intro g; rw [g.2]
  · have hex : ∃ p ∈ writtenSyms t bits, ¬ PlainName (shown t ot p.name) :=
      Classical.byContradiction fun g => hall fun p hp => Classical.byContradiction fun g' => g ⟨p, hp, g'⟩
    rw [h1 hex]
    constructor
    · intro g; cases g
    · intro g; exact absurd g.1 hall

/-- The two tables of `C76_refuted` and `C76_refuted_prefix`: a name with a digit; a name that begins another one. -/
example : writtenSyms ⟨[⟨1, S "bit1"⟩], 0, 0⟩ 1 = [⟨1, S "bit1"⟩] ∧
    writtenSyms ⟨[⟨1, S "AB"⟩, ⟨2, S "A"⟩], 0, 0⟩ 2 = [⟨2, S "A"⟩] ∧ readAs ⟨[⟨1, S "AB"⟩, ⟨2, S "A"⟩], 0, 0⟩ (S "A") = 1 := by
  decide +kernel
example : IdentName (S "bit1") := by
  refine ⟨98, [105, 116, 49], rfl, .inl ⟨by omega, by omega⟩, ?_⟩
  intro d hd
  simp only [List.mem_cons, List.not_mem_nil, or_false] at hd
  unfold BmLetter BmSkip BmDigit
  omega

end C4
