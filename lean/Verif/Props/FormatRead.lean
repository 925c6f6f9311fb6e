import Verif.Props.Format
import Verif.Props.SubstrSpans
/-
Property C53: uncatsep and unformat invert catsep and format on integers.
-/
namespace C4
open Spec

/-! ### The text of an integer is read back as the first number -/

theorem digitChar_dec {d : Nat} (h : d < 10) : DecChar (digitChar d) := by
  unfold digitChar DecChar; rw [if_pos h]; omega
theorem digitChar_oct {d : Nat} (h : d < 8) : OctChar (digitChar d) := by
  unfold digitChar OctChar; rw [if_pos (by omega)]; omega
theorem digitChar_bin {d : Nat} (h : d < 2) : BinChar (digitChar d) := by
  unfold digitChar BinChar; rw [if_pos (by omega)]; omega
theorem digitChar_hex {d : Nat} (h : d < 16) : HexChar (digitChar d) := by
  unfold digitChar HexChar; split <;> omega

theorem paddedText_run {P : Nat → Prop} {b : Nat} (hb : 2 ≤ b) (hP : ∀ d, d < b → P (digitChar d)) (v n : Nat) :
    Run P (paddedText b v n) := by
  refine ⟨?_, fun c hc => ?_⟩
  · unfold paddedText numeralText
    simp [numeral_ne_nil hb v]
  · unfold paddedText numeralText at hc
    rcases List.mem_append.mp hc with h | h
    · rw [List.mem_replicate] at h
      rw [h.2]; exact hP 0 (by omega)
    · obtain ⟨d, hd, rfl⟩ := List.mem_map.mp h
      exact hP d (numeral_digits hb d hd)

theorem uintText_body {r : Nat} (hr : isRadix r) (v n : Nat) : IntBody (uintText r v n) := by
  unfold uintText radixPrefix
  rcases hr with rfl | rfl | rfl | rfl
  · exact .bin (.inl rfl) (paddedText_run (by omega) (fun d h => digitChar_bin h) v n)
  · exact .oct (.inl rfl) (paddedText_run (by omega) (fun d h => digitChar_oct h) v n)
  · exact .dec (paddedText_run (by omega) (fun d h => digitChar_dec h) v n)
  · exact .hex (.inl rfl) (paddedText_run (by omega) (fun d h => digitChar_hex h) v n)

theorem intText_token {r : Nat} (hr : isRadix r) (v : Int) (n : Nat) (minus : Bool) (h : minus = true ∨ 0 ≤ v) :
    IntToken minus (intText r v n) := by
  unfold intText
  refine ⟨_, _, rfl, ?_, uintText_body hr _ n⟩
  split
  · exact .inr (.inr ⟨by rcases h with h | h <;> [exact h; omega], rfl⟩)
  · exact .inl rfl

/-- A text of the value `v` of type `t` as written by the library: any supported radix, any padding. -/
def NumText (t : ITy) (v : Int) (txt : List Nat) : Prop :=
  t.min ≤ v ∧ v ≤ t.max ∧ ∃ r nd, isRadix r ∧ txt = intText r v nd

theorem numText_ne {t : ITy} {v : Int} {txt : List Nat} (h : NumText t v txt) : txt.length ≠ 0 := by
  obtain ⟨_, _, r, nd, hr, rfl⟩ := h
  intro h0
  obtain ⟨sg, b, e, _, hb⟩ := intText_token hr v nd true (.inl rfl)
  have hb' : b ≠ [] := (intBody_noBlank hb).1
  rw [e] at h0
  simp at h0
  exact hb' h0.2

/-- `from_chars_first` on blanks and the text of a number followed by a delimiter or nothing. -/
theorem firstInt_blank_text {ws : List Nat} (hws : ∀ c ∈ ws, Blank c) {t : ITy} {v : Int} {txt : List Nat}
    (h : NumText t v txt) {rest : List Nat} (hd : DelimEnd rest) :
    firstInt t (ws ++ txt ++ rest) = .ok (some (ws.length + txt.length, v)) := by
  have hne := numText_ne h
  obtain ⟨h1, h2, r, nd, hr, rfl⟩ := h
  obtain ⟨w, sgn⟩ := t
  unfold firstInt
  cases sgn with
  | true =>
    simp only [if_true]
    unfold atoiFirst
    obtain ⟨sp, e, _, hT, _⟩ := firstIntSpan_contract (ws ++ intText r v nd ++ rest)
    have := hT ws.length (intText r v nd).length ⟨ws, _, rest, rfl, hws, intText_token hr v nd true (.inl rfl), hd, rfl, rfl⟩
    rw [e, Res.ok_bind, this]
    obtain ⟨o, ho⟩ := C13_signed_text w v r nd (by cases w <;> simpa [ITy.min, W.minI, W.bits] using h1)
      (by cases w <;> simp [ITy.max, W.bits] at h2 ⊢ <;> omega) hr
    have hof := Rng_of_mid ws (intText r v nd) rest
    rw [if_neg hne]
    rw [hof, ho, Res.ok_bind]
    simp
  | false =>
    simp only [Bool.false_eq_true, if_false]
    unfold atouFirst
    have h0 : 0 ≤ v := by simpa [ITy.min] using h1
    obtain ⟨m, rfl⟩ := Int.eq_ofNat_of_zero_le h0
    obtain ⟨sp, e, _, hT, _⟩ := firstUintSpan_contract (ws ++ intText r m nd ++ rest)
    have := hT ws.length (intText r m nd).length ⟨ws, _, rest, rfl, hws, intText_token hr m nd false (.inr h0), hd, rfl, rfl⟩
    rw [e, Res.ok_bind, this]
    obtain ⟨o, ho⟩ := C13_unsigned_text w m r nd (by
      simp only [ITy.max, Bool.false_eq_true, if_false] at h2
      have : (0:Int) < 2 ^ w.bits := by cases w <;> decide
      omega) hr
    have hof := Rng_of_mid ws (intText r m nd) rest
    rw [if_neg hne]
    rw [hof, intText_nat, ho, Res.ok_bind]
    simp

theorem firstInt_text {t : ITy} {v : Int} {txt : List Nat} (h : NumText t v txt) {rest : List Nat} (hd : DelimEnd rest) :
    firstInt t (txt ++ rest) = .ok (some (txt.length, v)) := by
  have := firstInt_blank_text (ws := []) (by simp) h hd
  simpa using this

theorem readRest_append (A B : List Nat) : readRest (A ++ B) A.length = B := by
  unfold readRest
  rw [if_pos (by simp), List.drop_left]

/-! ### uncat -/

/-- **C53**: reading number texts with `uncat`, each preceded by blanks (at least one between two numbers), gives all the
numbers and the length of the whole text. -/
theorem C53_uncat_text (l : List (List Nat × ITy × Int × List Nat))
    (h : ∀ x ∈ l, (∀ c ∈ x.1, Blank c) ∧ NumText x.2.1 x.2.2.1 x.2.2.2) (hsep : ∀ x ∈ l.tail, x.1 ≠ [])
    {rest : List Nat} (hd : DelimEnd rest) :
    uncat (l.map (·.2.1)) ((l.map (fun x => x.1 ++ x.2.2.2)).flatten ++ rest) =
      .ok (some ((l.map (fun x => x.1 ++ x.2.2.2)).flatten.length, l.map (·.2.2.1))) := by
  induction l with
  | nil => rfl
  | cons x l ih =>
    obtain ⟨hb, hx⟩ := h x (by simp)
    have ih := ih (fun y hy => h y (by simp [hy])) (fun y hy => hsep y (by
      cases l with
      | nil => simp at hy
      | cons z l => simp at hy ⊢; exact .inr hy))
    have hnext : DelimEnd ((l.map (fun x => x.1 ++ x.2.2.2)).flatten ++ rest) := by
      cases l with
      | nil => exact hd
      | cons y l =>
        intro d hd'
        have hy := (h y (by simp)).1
        have hne := hsep y (by simp)
        cases hy1 : y.1 with
        | nil => exact absurd hy1 hne
        | cons c t =>
          simp [hy1] at hd'
          have := hy c (by simp [hy1])
          subst hd'
          exact .inl this
    simp only [List.map_cons, List.flatten_cons, uncat]
    have e1 := firstInt_blank_text hb hx hnext
    rw [List.append_assoc (x.1 ++ x.2.2.2), e1, Res.ok_bind]
    have hr : readRest (x.1 ++ x.2.2.2 ++ ((l.map (fun x => x.1 ++ x.2.2.2)).flatten ++ rest))
        (x.1.length + x.2.2.2.length) = (l.map (fun x => x.1 ++ x.2.2.2)).flatten ++ rest := by
      rw [← List.length_append]; exact readRest_append _ _
    simp only [hr]
    rw [ih, Res.ok_bind]
    simp only [List.length_append]

example : uncat [⟨.w8, false⟩, ⟨.w32, true⟩, ⟨.w16, true⟩] (S "12 \t-0x1f  0b11,") = .ok (some (15, [12, -31, 3])) := by
  decide +kernel

/-! ### uncatsep -/

/-- A number to be written and read: its type, value and text. -/
abbrev NumItem := ITy × Int × List Nat

def NumItem.Ok (x : NumItem) : Prop := NumText x.1 x.2.1 x.2.2

theorem uncatsepMore_text {c : Nat} (hc : DelimChar c) (l : List NumItem) (h : ∀ x ∈ l, NumItem.Ok x)
    {rest : List Nat} (hd : DelimEnd rest) :
    uncatsepMore (l.map (·.1)) ((l.map (fun x => c :: x.2.2)).flatten ++ rest) =
      .ok (some ((l.map (fun x => c :: x.2.2)).flatten.length, l.map (·.2.1))) := by
  induction l with
  | nil => rfl
  | cons x l ih =>
    have hx := h x (by simp)
    have ih := ih fun y hy => h y (by simp [hy])
    have hnext : DelimEnd ((l.map (fun x => c :: x.2.2)).flatten ++ rest) := by
      cases l with
      | nil => exact hd
      | cons y l => intro d hd'; simp at hd'; exact hd' ▸ hc
    simp only [List.map_cons, List.flatten_cons, List.cons_append, List.append_assoc, uncatsepMore]
    rw [(C20_char c []).2.2.2.1, Res.ok_bind]
    have hr1 : readRest (c :: (x.2.2 ++ ((l.map (fun x => c :: x.2.2)).flatten ++ rest))) 1 =
        x.2.2 ++ ((l.map (fun x => c :: x.2.2)).flatten ++ rest) := readRest_append [c] _
    simp only [hr1]
    rw [firstInt_text hx hnext, Res.ok_bind]
    simp only [readRest_append]
    rw [ih, Res.ok_bind]
    simp only [List.length_cons, List.length_append]
    congr 3
    omega

/-- **C53**: reading separated number texts with `uncatsep` gives all the numbers and the length of the whole text. -/
theorem C53_uncatsep_text {c : Nat} (hc : DelimChar c) (l : List NumItem) (h : ∀ x ∈ l, NumItem.Ok x)
    {rest : List Nat} (hd : DelimEnd rest) :
    uncatsep (l.map (·.1)) (separated [c] (l.map (·.2.2)) ++ rest) =
      .ok (some ((separated [c] (l.map (·.2.2))).length, l.map (·.2.1))) := by
  cases l with
  | nil => rfl
  | cons x l =>
    have hx := h x (by simp)
    have hm := uncatsepMore_text hc l (fun y hy => h y (by simp [hy])) hd
    have hnext : DelimEnd ((l.map (fun x => c :: x.2.2)).flatten ++ rest) := by
      cases l with
      | nil => exact hd
      | cons y l => intro d hd'; simp at hd'; exact hd' ▸ hc
    have hsep : separated [c] ((x :: l).map (·.2.2)) = x.2.2 ++ (l.map (fun x => c :: x.2.2)).flatten := by
      rw [List.map_cons, separated_cons, List.map_map]; rfl
    rw [hsep]
    simp only [List.map_cons, List.append_assoc, uncatsep]
    rw [firstInt_text hx hnext, Res.ok_bind]
    simp only [readRest_append]
    rw [hm, Res.ok_bind]
    simp

/-- The integer arguments: plain, with radix, with radix and padding; with their type and value. -/
inductive IntArg : Arg → ITy → Int → Prop
  | uint {w v} : IntArg (.uint w v) ⟨w, false⟩ v
  | int {w v} : IntArg (.int w v) ⟨w, true⟩ v
  | uintR {w v r} : IntArg (.uintR w v r) ⟨w, false⟩ v
  | intR {w v r} : IntArg (.intR w v r) ⟨w, true⟩ v
  | uintP {w v r nd} : IntArg (.uintP w v r nd) ⟨w, false⟩ v
  | intP {w v r nd} : IntArg (.intP w v r nd) ⟨w, true⟩ v

theorem IntArg.numText {a : Arg} {t : ITy} {v : Int} (h : IntArg a t v) (hv : a.Valid) : NumText t v a.text := by
  have hu : ∀ {w : W} {v : Nat}, v < 2 ^ w.bits → ITy.min ⟨w, false⟩ ≤ (v : Int) ∧ (v : Int) ≤ ITy.max ⟨w, false⟩ := by
    intro w v h
    simp only [ITy.min, ITy.max, Bool.false_eq_true, if_false]
    omega
  have hs : ∀ {w : W} {v : Int}, w.minI ≤ v ∧ v < 2 ^ (w.bits - 1) → ITy.min ⟨w, true⟩ ≤ v ∧ v ≤ ITy.max ⟨w, true⟩ := by
    rintro w v ⟨h1, h2⟩
    cases w <;> simp [ITy.min, ITy.max, W.minI, W.bits] at h1 h2 ⊢ <;> omega
  cases h with
  | uint => exact ⟨(hu hv).1, (hu hv).2, 10, 0, by simp [isRadix], rfl⟩
  | int => exact ⟨(hs hv).1, (hs hv).2, 10, 0, by simp [isRadix], rfl⟩
  | uintR => exact ⟨(hu hv.1).1, (hu hv.1).2, _, 0, hv.2, rfl⟩
  | intR => exact ⟨(hs ⟨hv.1, hv.2.1⟩).1, (hs ⟨hv.1, hv.2.1⟩).2, _, 0, hv.2.2, rfl⟩
  | uintP => exact ⟨(hu hv.1).1, (hu hv.1).2, _, _, hv.2.1, rfl⟩
  | intP => exact ⟨(hs ⟨hv.1, hv.2.1⟩).1, (hs ⟨hv.1, hv.2.1⟩).2, _, _, hv.2.2.1, rfl⟩

/-- Integer arguments with their types and values. -/
def IntArgs (l : List (Arg × ITy × Int)) : Prop := ∀ x ∈ l, IntArg x.1 x.2.1 x.2.2 ∧ x.1.Valid

theorem IntArgs.items {l : List (Arg × ITy × Int)} (h : IntArgs l) :
    ∀ x ∈ l.map (fun x => ((x.2.1, x.2.2, x.1.text) : NumItem)), NumItem.Ok x := by
  intro x hx
  obtain ⟨y, hy, rfl⟩ := List.mem_map.mp hx
  exact (h y hy).1.numText (h y hy).2

/-- **C53** (`uncatsep`): `catsep` of any integers with a delimiter character as separator, into a buffer that is large enough,
and `uncatsep` of the text: the same integers, the whole text consumed. -/
theorem C53_uncatsep {c : Nat} (hc : DelimChar c) (l : List (Arg × ITy × Int)) (h : IntArgs l) (buf : List Nat)
    (hb : (separated [c] (l.map (·.1.text))).length ≤ buf.length) :
    ∃ n b, catsep (Arg.chr c).toChars (l.map (·.1.toChars)) buf = .ok (n, b) ∧ n ≤ buf.length ∧
      uncatsep (l.map (·.2.1)) (b.take n) = .ok (some (n, l.map (·.2.2))) := by
  obtain ⟨b, e, _, hfit⟩ := C50_catsep_args (.chr c) trivial (l.map (·.1)) (by
    intro a ha
    obtain ⟨y, hy, rfl⟩ := List.mem_map.mp ha
    exact (h y hy).2) buf
  simp only [List.map_map] at e hfit
  refine ⟨_, _, e, hb, ?_⟩
  rw [hfit hb, overwrite_take]
  have := C53_uncatsep_text hc _ h.items (rest := []) (by intro c hc; cases hc)
  simp only [List.append_nil, List.map_map] at this
  exact this

example : catsep (Arg.chr 44).toChars ([.int .w32 (-12), .uintR .w8 255 16, .int .w64 0].map Arg.toChars) (S "............") =
    .ok (10, S "-12,0xff,0..") := by decide +kernel
example : uncatsep [⟨.w32, true⟩, ⟨.w8, false⟩, ⟨.w64, true⟩] (S "-12,0xff,0") = .ok (some (10, [-12, 255, 0])) := by
  decide +kernel
example : IntArgs [(.int .w32 (-12), ⟨.w32, true⟩, -12), (.uintR .w8 255 16, ⟨.w8, false⟩, 255)] := by
  intro x hx
  simp at hx
  rcases hx with rfl | rfl
  · exact ⟨.int, by simp [Arg.Valid, W.bits]; decide⟩
  · exact ⟨.uintR, by simp [Arg.Valid, W.bits, isRadix]⟩

/-! ### unformat -/

/-- Every mark of the format string is followed by a delimiter or the end. -/
def MarksDelimited (fmt : List Nat) : Prop := ∀ pre post, fmt = pre ++ mark ++ post → DelimEnd post

theorem Spec.Filled.head {fmt : List Nat} {args : List (List Nat)} {out : List Nat} (h : Filled fmt args out) (hd : DelimEnd fmt) :
    DelimEnd out := by
  cases h with
  | noargs => exact hd
  | @step pre post a args out hpre h =>
    cases pre with
    | nil =>
      have := hd 123 (by simp [mark])
      simp [DelimChar, Blank] at this
    | cons x pre => intro c hc; exact hd c (by simpa using hc)

theorem findS_first {pre post : List Nat} (h : ∀ i, i < pre.length → ¬ OccursAt (pre ++ mark ++ post) mark i) :
    findS (pre ++ mark ++ post) [123, 125] 0 = .ok (some pre.length) := by
  obtain ⟨r, e, h1, _⟩ := C29_find (pre ++ mark ++ post) [123, 125] 0
  rw [e, (h1 pre.length).mpr ⟨Nat.zero_le _, occurs_pre pre post, fun j _ hj => h j hj⟩]

theorem drop_mark (pre post : List Nat) : (pre ++ mark ++ post).drop (pre.length + 2) = post :=
  List.drop_left' (by simp [mark])

theorem unformat_text {fmt : List Nat} {args : List (List Nat)} {out : List Nat} (hf : Filled fmt args out) :
    ∀ (l : List NumItem), (∀ x ∈ l, NumItem.Ok x) → l.map (·.2.2) = args → MarksDelimited fmt →
      unformat (l.map (·.1)) fmt out = .ok (some (out.length, l.map (·.2.1))) := by
  induction hf with
  | noargs =>
    intro l _ he _
    have : l = [] := by simpa using he
    subst this; rfl
  | @step pre post a args out hpre hf ih =>
    intro l hl he hm
    cases l with
    | nil => cases he
    | cons x l =>
      simp only [List.map_cons, List.cons.injEq] at he
      obtain ⟨rfl, he⟩ := he
      have hm' : MarksDelimited post := fun p q e => hm (pre ++ mark ++ p) q (by rw [e]; simp)
      have hi := ih l (fun y hy => hl y (by simp [hy])) he hm'
      have hd : DelimEnd out := hf.head (hm pre post rfl)
      simp only [List.map_cons, unformat]
      rw [findS_first hpre, Res.ok_bind]
      have hr : readRest (pre ++ x.2.2 ++ out) pre.length = x.2.2 ++ out := by
        rw [List.append_assoc]; exact readRest_append _ _
      simp only [hr]
      rw [firstInt_text (hl x (by simp)) hd, Res.ok_bind]
      simp only [readRest_append]
      rw [drop_mark, hi, Res.ok_bind]
      simp only [List.length_append]

/-- **C53** (`unformat`): `format` of any integers with a format string having a mark for each, every mark followed by a
delimiter or the end, into a buffer that is large enough, and `unformat` of the text with the same format string: the same
integers, the whole text consumed. -/
theorem C53_unformat {fmt out : List Nat} (l : List (Arg × ITy × Int)) (h : IntArgs l)
    (hf : Filled fmt (l.map (·.1.text)) out) (hm : MarksDelimited fmt) (buf : List Nat) (hb : out.length ≤ buf.length) :
    ∃ b, format fmt (l.map (·.1.toChars)) buf = .ok (out.length, b) ∧
      unformat (l.map (·.2.1)) fmt (b.take out.length) = .ok (some (out.length, l.map (·.2.2))) := by
  have hs : Subst fmt ((l.map (·.1)).map Arg.text) out := by
    rw [List.map_map]; exact hf.subst
  obtain ⟨b, e, _, hfit⟩ := C51_format_args fmt (l.map (·.1)) (by
    intro a ha
    obtain ⟨y, hy, rfl⟩ := List.mem_map.mp ha
    exact (h y hy).2) hs buf
  rw [List.map_map] at e
  refine ⟨b, e, ?_⟩
  rw [hfit hb, overwrite_take]
  have := unformat_text hf _ h.items (by rw [List.map_map]; rfl) hm
  simp only [List.map_map] at this
  exact this

/-- Without the delimiter condition the inverse fails. -/
theorem C53_delimiter_needed :
    format (S "{}x") ([.int .w32 5].map Arg.toChars) (S "..") = .ok (2, S "5x") ∧
    unformat [⟨.w32, true⟩] (S "{}x") (S "5x") = .ok none := by decide +kernel

example : unformat [⟨.w32, true⟩, ⟨.w16, false⟩] (S "a{} b={}]") (S "a-7 b=0x2a]") = .ok (some (11, [-7, 42])) := by
  decide +kernel
example : MarksDelimited (S "a{}") := by
  intro pre post e
  rcases pre with _ | ⟨x, _ | ⟨y, pre⟩⟩
  · simp [S, mark] at e
  · simp [S, mark] at e
    rw [e.2]; intro c hc; cases hc
  · have := congrArg List.length e
    simp [S, mark] at this
    omega

end C4
