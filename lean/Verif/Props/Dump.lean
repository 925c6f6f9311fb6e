import Verif.Dump
import Verif.Props.Format
/-
Properties C64-C66: the dump functions.
-/
namespace C4
open Spec

/-! ### Arguments and their texts -/

/-- The text of an argument: a value is a bounded writer of it, a string is it. -/
def DArg.Shows : DArg → List Nat → Prop
  | .val f, t => Writes f t
  | .str s, t => s = t

/-- An argument with its text. -/
abbrev DItem := DArg × List Nat

/-- The buffer space an argument needs: strings need none. -/
def need (p : DItem) : Nat :=
  match p.1 with
  | .val _ => p.2.length
  | .str _ => 0

/-- Is the argument sent with a buffer of `n` characters? -/
def fits (n : Nat) (p : DItem) : Bool :=
  match p.1 with
  | .val _ => decide (p.2.length ≤ n)
  | .str _ => decide (0 < n)

/-- The largest need. -/
def req : List DItem → Nat
  | [] => 0
  | p :: l => max (need p) (req l)

def DItems (l : List DItem) : Prop := ∀ p ∈ l, p.1.Shows p.2

theorem DItems.cons {p : DItem} {l : List DItem} (h : DItems (p :: l)) : p.1.Shows p.2 ∧ DItems l :=
  ⟨h p (by simp), fun q hq => h q (by simp [hq])⟩

/-- All the texts, joined. -/
abbrev joined (l : List DItem) : List Nat := (l.map (·.2)).flatten

theorem fits_iff {n : Nat} {p : DItem} (h : 0 < n) : fits n p = true ↔ need p ≤ n := by
  obtain ⟨a, t⟩ := p
  cases a <;> simp [fits, need, h]

theorem dump_shows {p : DItem} (h : p.1.Shows p.2) (buf : List Nat) :
    ∃ b, dump p.1 buf = .ok (need p, b, if fits buf.length p then [p.2] else []) ∧ b.length = buf.length := by
  obtain ⟨a, t⟩ := p
  cases a with
  | val f =>
    obtain ⟨b, e, hl, hfit⟩ := h buf
    refine ⟨b, ?_, hl⟩
    simp only [dump, need, fits]
    rw [e, Res.ok_bind]
    by_cases ht : t.length ≤ buf.length
    · simp only [ht, decide_true, if_true, hfit ht]
      rw [overwrite_take]
    · simp only [ht, decide_false, if_false, Bool.false_eq_true]
  | str s =>
    have h : s = t := h
    subst h
    refine ⟨buf, ?_, rfl⟩
    simp only [dump, need, fits, Nat.pos_iff_ne_zero, decide_eq_true_eq]

theorem max_code (a b : Nat) : (if b > a then b else a) = max a b := by
  split <;> omega

/-! ### C64: cat_dump -/

theorem catDump_dead (l : List DItem) (h : DItems l) : ∃ o, catDump (l.map (·.1)) [] = .ok (req l, o) ∧ o.flatten = [] := by
  induction l with
  | nil => exact ⟨[], rfl, rfl⟩
  | cons p l ih =>
    obtain ⟨b, e, hl⟩ := dump_shows h.cons.1 []
    obtain ⟨o, e2, h2⟩ := ih h.cons.2
    have hb : b = [] := List.length_eq_zero_iff.mp hl
    subst hb
    have hs : shut (need p) ([] : List Nat) = [] := by simp [shut]
    simp only [List.map_cons, catDump]
    rw [e, Res.ok_bind, hs, e2, Res.ok_bind, max_code]
    refine ⟨_, rfl, ?_⟩
    rw [List.flatten_append, h2, List.append_nil]
    split
    · rename_i hf
      obtain ⟨a, t⟩ := p
      cases a <;> simp [fits] at hf ⊢
      exact hf
    · rfl

theorem catDump_spec (l : List DItem) (h : DItems l) (buf : List Nat) :
    ∃ o, catDump (l.map (·.1)) buf = .ok (req l, o) ∧ o.flatten = joined (l.takeWhile (fits buf.length)) ∧
      ((∀ p ∈ l, fits buf.length p = true) → o = l.map (·.2)) := by
  induction l generalizing buf with
  | nil => exact ⟨[], rfl, rfl, fun _ => rfl⟩
  | cons p l ih =>
    obtain ⟨b, e, hl⟩ := dump_shows h.cons.1 buf
    simp only [List.map_cons, catDump]
    rw [e, Res.ok_bind]
    by_cases hf : fits buf.length p = true
    · have hs : shut (need p) b = b := by
        unfold shut
        rw [if_neg]
        rw [hl]
        by_cases h0 : 0 < buf.length
        · have := (fits_iff h0).mp hf; omega
        · obtain ⟨a, t⟩ := p
          cases a <;> simp [fits, need] at hf ⊢; omega
      obtain ⟨o, e2, h2, h3⟩ := ih h.cons.2 b
      rw [hs, e2, Res.ok_bind, max_code]
      refine ⟨_, rfl, ?_, ?_⟩
      · rw [List.takeWhile_cons_of_pos hf]
        simp [hf, h2, hl, joined]
      · intro ha
        rw [h3 (fun q hq => by rw [hl]; exact ha q (by simp [hq]))]
        simp [hf]
    · rw [if_neg hf]
      have hdead : shut (need p) b = [] := by
        unfold shut
        split
        · rfl
        · rename_i hn
          rw [hl] at hn
          by_cases h0 : 0 < buf.length
          · exact absurd ((fits_iff h0).mpr (by omega)) hf
          · exact List.length_eq_zero_iff.mp (by omega)
      obtain ⟨o, e2, h2⟩ := catDump_dead l h.cons.2
      rw [hdead, e2, Res.ok_bind, max_code]
      refine ⟨_, rfl, ?_, fun ha => absurd (ha p (by simp)) hf⟩
      rw [List.takeWhile_cons_of_neg hf]
      rw [List.nil_append, h2]; rfl

theorem req_le {l : List DItem} {n : Nat} (h : req l ≤ n) : ∀ p ∈ l, need p ≤ n := by
  induction l with
  | nil => intro p hp; cases hp
  | cons q l ih =>
    intro p hp
    rw [req] at h
    rcases List.mem_cons.mp hp with rfl | hp
    · omega
    · exact ih (by omega) p hp

theorem fits_of_req {l : List DItem} {n : Nat} (h0 : 0 < n) (h : req l ≤ n) : ∀ p ∈ l, fits n p = true :=
  fun p hp => (fits_iff h0).mpr (req_le h p hp)

/-- **C64** for `cat_dump`: the returned size is the largest need, whatever the buffer; a non-empty buffer of that size or more
makes the sink receive the text of every argument, in order. -/
theorem C64_cat_dump (l : List DItem) (h : DItems l) (buf : List Nat) :
    ∃ o, catDump (l.map (·.1)) buf = .ok (req l, o) ∧ (0 < buf.length → req l ≤ buf.length → o = l.map (·.2)) := by
  obtain ⟨o, e, _, h3⟩ := catDump_spec l h buf
  exact ⟨o, e, fun h0 hr => h3 (fits_of_req h0 hr)⟩

/-- **C64** for `cat_dump` with any buffer: the sink receives the arguments before the first one that does not fit, and nothing
after it. -/
theorem C64_cat_dump_short (l : List DItem) (h : DItems l) (buf : List Nat) :
    ∃ n o, catDump (l.map (·.1)) buf = .ok (n, o) ∧ o.flatten = joined (l.takeWhile (fits buf.length)) ∧ o.flatten <+: joined l := by
  obtain ⟨o, e, h2, _⟩ := catDump_spec l h buf
  refine ⟨_, o, e, h2, ?_⟩
  rw [h2]
  refine ⟨joined (l.dropWhile (fits buf.length)), ?_⟩
  rw [← List.flatten_append, ← List.map_append, List.takeWhile_append_dropWhile]

/-! ### C64: catsep_dump -/

/-- The arguments with the separator between them. -/
def inter {α : Type} (sep : α) : List α → List α
  | [] => []
  | [a] => [a]
  | a :: b :: r => a :: sep :: inter sep (b :: r)

theorem inter_map {α β : Type} (g : α → β) (sep : α) (l : List α) : (inter sep l).map g = inter (g sep) (l.map g) := by
  induction l with
  | nil => rfl
  | cons a l ih =>
    cases l with
    | nil => rfl
    | cons b l => simpa [inter] using ih

theorem inter_flatten (sep : List Nat) (l : List (List Nat)) : (inter sep l).flatten = separated sep l := by
  induction l with
  | nil => rfl
  | cons a l ih =>
    cases l with
    | nil => simp [inter, separated]
    | cons b l => simp [inter, separated, ih]

theorem inter_items {sep : DItem} {l : List DItem} (hs : sep.1.Shows sep.2) (h : DItems l) : DItems (inter sep l) := by
  induction l with
  | nil => exact h
  | cons a l ih =>
    cases l with
    | nil => exact h
    | cons b l =>
      intro p hp
      simp only [inter, List.mem_cons] at hp
      rcases hp with rfl | rfl | hp
      · exact h.cons.1
      · exact hs
      · exact ih h.cons.2 p hp

theorem catsepDump_eq (sep : DArg) (l : List DArg) (buf : List Nat) : catsepDump sep l buf = catDump (inter sep l) buf := by
  induction l generalizing buf with
  | nil => rfl
  | cons a l ih =>
    cases l with
    | nil => rfl
    | cons b l =>
      simp only [catsepDump, inter, catDump]
      cases dump a buf with
      | ok r =>
        simp only [Res.ok_bind]
        cases dump sep (shut r.1 r.2.1) with
        | ok r2 =>
          simp only [Res.ok_bind]
          rw [ih]
          cases catDump (inter sep (b :: l)) (shut r2.1 r2.2.1) with
          | ok r3 =>
            simp only [Res.ok_bind, Res.ok.injEq, Prod.mk.injEq, and_true, max_code]
            omega
          | _ => rfl
        | _ => rfl
      | _ => rfl

/-- **C64** for `catsep_dump`: the returned size is the largest need among the arguments and, if there are two or more, the
separator; a non-empty buffer of that size or more makes the sink receive the separated text. -/
theorem C64_catsep_dump (sep : DItem) (hs : sep.1.Shows sep.2) (l : List DItem) (h : DItems l) (buf : List Nat) :
    ∃ o, catsepDump sep.1 (l.map (·.1)) buf = .ok (req (inter sep l), o) ∧
      (0 < buf.length → req (inter sep l) ≤ buf.length → o = inter sep.2 (l.map (·.2)) ∧
        o.flatten = separated sep.2 (l.map (·.2))) := by
  obtain ⟨o, e, h2⟩ := C64_cat_dump (inter sep l) (inter_items hs h) buf
  rw [inter_map] at e
  rw [inter_map] at h2
  refine ⟨o, by rw [catsepDump_eq]; exact e, fun h0 hr => ?_⟩
  rw [h2 h0 hr]
  exact ⟨rfl, inter_flatten _ _⟩

/-- **C64** for `catsep_dump` with any buffer: the sink receives a prefix of the separated text. -/
theorem C64_catsep_dump_short (sep : DItem) (hs : sep.1.Shows sep.2) (l : List DItem) (h : DItems l) (buf : List Nat) :
    ∃ n o, catsepDump sep.1 (l.map (·.1)) buf = .ok (n, o) ∧ o.flatten = joined ((inter sep l).takeWhile (fits buf.length)) ∧
      o.flatten <+: separated sep.2 (l.map (·.2)) := by
  obtain ⟨n, o, e, h2, h3⟩ := C64_cat_dump_short (inter sep l) (inter_items hs h) buf
  rw [inter_map] at e
  refine ⟨n, o, by rw [catsepDump_eq]; exact e, h2, ?_⟩
  rw [joined, inter_map, inter_flatten] at h3
  exact h3

/-! ### C64: format_dump -/

theorem findS_mark {pre post : List Nat} (h : ∀ i, i < pre.length → ¬ OccursAt (pre ++ mark ++ post) mark i) :
    findS (pre ++ mark ++ post) [123, 125] 0 = .ok (some pre.length) := by
  obtain ⟨r, e, h1, _⟩ := C29_find (pre ++ mark ++ post) [123, 125] 0
  rw [e, (h1 pre.length).mpr ⟨Nat.zero_le _, occurs_pre pre post, fun i _ hi => h i hi⟩]

theorem findS_nomark {fmt : List Nat} (h : ∀ i, ¬ OccursAt fmt mark i) : findS fmt [123, 125] 0 = .ok none := by
  obtain ⟨r, e, _, h2⟩ := C29_find fmt [123, 125] 0
  rw [e, h2.mpr fun i _ => h i]

theorem drop_mark (pre post : List Nat) : (pre ++ mark ++ post).drop (pre.length + 2) = post := by
  exact List.drop_left' (by simp [mark])

theorem take_mark (pre post : List Nat) : (pre ++ mark ++ post).take pre.length = pre := by
  rw [List.append_assoc]; exact List.take_left' rfl

theorem text_chunk (n : Nat) (t : List Nat) (m : Nat) (hm : m = t.length) :
    (if n > 0 ∧ m > 0 then [t] else []).flatten = if 0 < n then t else [] := by
  subst hm
  by_cases h0 : 0 < n
  · by_cases ht : t.length > 0
    · simp [h0, ht]
    · have : t = [] := List.length_eq_zero_iff.mp (by omega)
      simp [this]
  · simp [h0]

theorem formatDump_spec {fmt out : List Nat} {ts : List (List Nat)} (hs : Subst fmt ts out) :
    ∀ (l : List DItem), l.map (·.2) = ts → DItems l →
    ∃ k, (Filled fmt ts out → k = l.length) ∧ ∀ buf, ∃ o, formatDump fmt (l.map (·.1)) buf = .ok (req (l.take k), o) ∧
      (0 < buf.length → req (l.take k) ≤ buf.length → o.flatten = out) ∧ o.flatten <+: out ∧ (buf = [] → o.flatten = []) := by
  have base : ∀ (fmt buf : List Nat), ∃ o : Chunks, (if buf.length > 0 ∧ fmt.length > 0 then [fmt] else []) = o ∧
      (0 < buf.length → o.flatten = fmt) ∧ o.flatten <+: fmt ∧ (buf = [] → o.flatten = []) := by
    intro fmt buf
    refine ⟨_, rfl, ?_⟩
    rw [text_chunk _ _ _ rfl]
    by_cases h0 : 0 < buf.length
    · simp [h0]
      intro e; simp [e] at h0
    · simp [h0]
  induction hs with
  | @noargs fmt =>
    intro l hl h
    have : l = [] := by simpa using hl
    subst this
    refine ⟨0, fun _ => rfl, fun buf => ?_⟩
    obtain ⟨o, h1, h2, h3, h4⟩ := base fmt buf
    exact ⟨o, by simp [formatDump, h1, req], fun h0 _ => h2 h0, h3, h4⟩
  | @nomark fmt args hno =>
    intro l hl h
    refine ⟨0, ?_, fun buf => ?_⟩
    · have : ∀ o, Filled fmt args o → 0 = l.length := by
        intro o hf
        cases hf with
        | noargs => simpa using congrArg List.length hl.symm
        | step _ _ => exact absurd (occurs_pre _ _) (hno _)
      exact this fmt
    · obtain ⟨o, h1, h2, h3, h4⟩ := base fmt buf
      refine ⟨o, ?_, fun h0 _ => h2 h0, h3, h4⟩
      cases l with
      | nil => simp [formatDump, h1, req]
      | cons p l =>
        simp only [List.map_cons, formatDump]
        rw [findS_nomark hno, Res.ok_bind]
        simp only [h1]
        rfl
  | @step pre post a args out hpre hs ih =>
    intro l hl h
    cases l with
    | nil => cases hl
    | cons p l =>
      obtain ⟨hp, hl⟩ := List.cons.inj hl
      obtain ⟨k, hk, ih⟩ := ih l hl h.cons.2
      refine ⟨k + 1, ?_, fun buf => ?_⟩
      · intro hf
        generalize e : pre ++ mark ++ post = f at hf
        generalize e2 : a :: args = as at hf
        generalize e3 : pre ++ a ++ out = o at hf
        cases hf with
        | noargs => cases e2
        | @step pre' post' a' args' out' hpre' hf' =>
          obtain ⟨rfl, rfl⟩ := List.cons.inj e2
          obtain ⟨rfl, rfl⟩ := split_unique e hpre hpre'
          have : out = out' := by simpa using e3
          subst this
          simp [hk hf']
      · obtain ⟨b, e, hb⟩ := dump_shows h.cons.1 buf
        simp only [List.map_cons, formatDump]
        rw [findS_mark hpre, Res.ok_bind]
        simp only [drop_mark, take_mark]
        rw [e, Res.ok_bind]
        obtain ⟨o, e2, h2, h3, h4⟩ := ih (shut (need p) b)
        simp only []
        rw [e2, Res.ok_bind]
        have hp' : p.2 = a := hp
        refine ⟨_, by simp only [List.take_succ_cons, req, max_code]; rfl, ?_, ?_, ?_⟩
        · intro h0 hr
          rw [List.take_succ_cons, req] at hr
          have hf : fits buf.length p = true := (fits_iff h0).mpr (by omega)
          have hsh : shut (need p) b = b := by
            unfold shut; rw [if_neg (by omega)]
          rw [List.flatten_append, List.flatten_append, text_chunk _ _ _ rfl, if_pos h0, if_pos hf,
            h2 (by rw [hsh]; omega) (by rw [hsh]; omega), hp']
          simp
        · rw [List.flatten_append, List.flatten_append, text_chunk _ _ _ rfl]
          by_cases h0 : 0 < buf.length
          · rw [if_pos h0]
            by_cases hf : fits buf.length p = true
            · rw [if_pos hf, hp']
              simpa using h3
            · have hd : shut (need p) b = [] := by
                unfold shut
                rw [if_pos]
                rw [hb]
                have := mt (fits_iff h0).mpr hf
                omega
              rw [if_neg hf, h4 hd]
              simp
          · have hb0 : b = [] := List.length_eq_zero_iff.mp (by omega)
            have hd : shut (need p) b = [] := by subst hb0; simp [shut]
            rw [h4 hd, if_neg h0, List.append_nil, List.nil_append]
            split
            · rename_i hf
              obtain ⟨ar, t⟩ := p
              cases ar <;> simp [fits] at hf ⊢
              · have : t = [] := List.length_eq_zero_iff.mp (by omega)
                simp [this]
              · omega
            · simp
        · intro hbuf
          subst hbuf
          have hb0 : b = [] := List.length_eq_zero_iff.mp (by simpa using hb)
          have hd : shut (need p) b = [] := by subst hb0; simp [shut]
          rw [List.flatten_append, List.flatten_append, text_chunk _ _ _ rfl, h4 hd]
          simp only [List.length_nil, Nat.lt_irrefl, if_false, List.nil_append, List.append_nil]
          split
          · rename_i hf
            obtain ⟨ar, t⟩ := p
            cases ar <;> simp [fits] at hf ⊢
            exact hf
          · rfl

/-- **C64** for `format_dump`: the returned size is the largest need among the arguments that have a mark, whatever the buffer; a
non-empty buffer of that size or more makes the sink receive the formatted text, any other a prefix of it. -/
theorem C64_format_dump (fmt out : List Nat) (l : List DItem) (h : DItems l) (hs : Subst fmt (l.map (·.2)) out) :
    ∃ k, (Filled fmt (l.map (·.2)) out → k = l.length) ∧ ∀ buf, ∃ o, formatDump fmt (l.map (·.1)) buf = .ok (req (l.take k), o) ∧
      (0 < buf.length → req (l.take k) ≤ buf.length → o.flatten = out) ∧ o.flatten <+: out := by
  obtain ⟨k, hk, h2⟩ := formatDump_spec hs l rfl h
  refine ⟨k, hk, fun buf => ?_⟩
  obtain ⟨o, e, h3, h4, _⟩ := h2 buf
  exact ⟨o, e, h3, h4⟩

/-- **C64**: with an empty buffer nothing is sent. -/
theorem C64_empty_buffer (fmt : List Nat) (sep : DItem) (hs : sep.1.Shows sep.2) (l : List DItem) (h : DItems l) :
    (∃ n o, catDump (l.map (·.1)) [] = .ok (n, o) ∧ o.flatten = []) ∧
    (∃ n o, catsepDump sep.1 (l.map (·.1)) [] = .ok (n, o) ∧ o.flatten = []) ∧
    (∃ n o, formatDump fmt (l.map (·.1)) [] = .ok (n, o) ∧ o.flatten = []) := by
  refine ⟨?_, ?_, ?_⟩
  · obtain ⟨o, e, h2⟩ := catDump_dead l h
    exact ⟨_, o, e, h2⟩
  · obtain ⟨o, e, h2⟩ := catDump_dead _ (inter_items hs h)
    rw [inter_map] at e
    exact ⟨_, o, by rw [catsepDump_eq]; exact e, h2⟩
  · have hex : ∀ (l : List (List Nat)) (fmt : List Nat), ∃ out, Subst fmt l out := by
      intro l fmt
      obtain ⟨out, h1, _⟩ := C51_format fmt (l.map fun t => (toCharsStr t, t)) (by
        intro p hp
        obtain ⟨t, _, rfl⟩ := List.mem_map.mp hp
        exact writes_str t)
      exact ⟨out, by simpa [Function.comp_def] using h1⟩
    obtain ⟨out, ho⟩ := hex (l.map (·.2)) fmt
    obtain ⟨k, _, h2⟩ := formatDump_spec ho l rfl h
    obtain ⟨o, e, _, _, h5⟩ := h2 []
    exact ⟨_, o, e, h5 rfl⟩

/-- An integer as a dump argument. -/
def dInt (v : Nat) : DArg := .val (Arg.toChars (.uint .w32 v))

theorem dInt_shows (v : Nat) (h : v < 2 ^ 32) : (dInt v).Shows (Arg.text (.uint .w32 v)) := Arg.writes (.uint .w32 v) h

example : DItems [(dInt 12345, Arg.text (.uint .w32 12345)), (.str (S "x"), S "x")] := by
  intro p hp
  simp only [List.mem_cons, List.not_mem_nil, or_false] at hp
  rcases hp with rfl | rfl
  · exact dInt_shows _ (by decide)
  · rfl
example : catDump [dInt 12, .str (S "hello"), dInt 345] (S "...") = .ok (3, [S "12", S "hello", S "345"]) := by decide +kernel
example : catDump [dInt 12, .str (S "hello"), dInt 345, .str (S "x")] (S "..") = .ok (3, [S "12", S "hello"]) := by decide +kernel
example : catsepDump (.str (S ", ")) [dInt 12, dInt 345] (S "...") = .ok (3, [S "12", S ", ", S "345"]) := by decide +kernel
example : formatDump (S "a{}b{}") [dInt 12, .str (S "hello")] (S "...") = .ok (2, [S "a", S "12", S "b", S "hello"]) := by decide +kernel

end C4
