import Verif.Format
import Verif.Spec.Format
import Verif.Props.SubstrSearch
import Verif.Props.CharconvConvert
/-
Properties C49-C52: cat, catsep, format and their resizing variants.
-/
namespace C4
open Spec

/-! ### Contract of the argument writers -/

theorem writes_of_exact {f : Writer} {t : List Nat} (h : ExactW f t) : Writes f t := by
  intro buf
  refine ⟨_, h buf, ?_, fun hl => by rw [if_pos hl]⟩
  split
  · rename_i hl; exact overwrite_length hl
  · rfl

theorem writes_of_intOut {f : Writer} {t : List Nat} {v : Int} (h : ∀ buf, f buf = .ok (intOut t v buf)) : Writes f t := by
  intro buf
  refine ⟨_, h buf, ?_, fun hl => by rw [if_pos hl]⟩
  split
  · rename_i hl; exact overwrite_length hl
  · split <;> simp

theorem writes_str (s : List Nat) : Writes (toCharsStr s) s := by
  intro buf
  obtain ⟨h1, h2⟩ := C20_string_write s buf
  refine ⟨_, h1, h2, fun hl => ?_⟩
  rw [List.take_of_length_le hl]; rfl

/-- Values in the range of their type, supported radices, padding below 2^32-3 (beyond, the padded writers themselves go
wrong: C09). -/
def Arg.Valid : Arg → Prop
  | .uint w v => v < 2 ^ w.bits
  | .int w v => w.minI ≤ v ∧ v < 2 ^ (w.bits - 1)
  | .uintR w v r => v < 2 ^ w.bits ∧ isRadix r
  | .intR w v r => w.minI ≤ v ∧ v < 2 ^ (w.bits - 1) ∧ isRadix r
  | .uintP w v r nd => v < 2 ^ w.bits ∧ isRadix r ∧ nd < 2 ^ 32 - 3
  | .intP w v r nd => w.minI ≤ v ∧ v < 2 ^ (w.bits - 1) ∧ isRadix r ∧ nd < 2 ^ 32 - 3
  | .ptr a => -(2 ^ 63) ≤ a ∧ a < 2 ^ 63
  | _ => True

/-- The text of an argument. -/
def Arg.text : Arg → List Nat
  | .uint _ v => intText 10 v 0
  | .int _ v => intText 10 v 0
  | .uintR _ v r => intText r v 0
  | .intR _ v r => intText r v 0
  | .uintP _ v r nd => intText r v nd
  | .intP _ v r nd => intText r v nd
  | .chr c => [c]
  | .str s => s
  | .bool b => if b then S "1" else S "0"
  | .boolalpha b => if b then S "true" else S "false"
  | .ptr a => intText 16 a 0

theorem intText_nat (r v n : Nat) : intText r v n = uintText r v n := by
  unfold intText
  rw [if_neg (by omega)]; simp

/-- Every modelled `to_chars` overload is a bounded writer of the argument's text. -/
theorem Arg.writes (a : Arg) (h : a.Valid) : Writes a.toChars a.text := by
  cases a with
  | uint w v =>
    refine writes_of_exact ?_
    have := writeDec_exact w v h
    rw [Arg.text, intText_nat]
    simp only [uintText, radixPrefix, paddedText_zero]
    exact this
  | int w v => exact writes_of_exact (itoa_eq w v h.1 h.2)
  | uintR w v r =>
    rw [Arg.text, intText_nat]
    exact writes_of_exact (utoaRadix_exact w v r h.1 h.2)
  | intR w v r => exact writes_of_intOut (itoaRadix_eq w v r h.2.2 h.1 h.2.1)
  | uintP w v r nd =>
    rw [Arg.text, intText_nat]
    exact writes_of_exact (utoaRadixPad_exact w v r nd h.1 h.2.1 h.2.2)
  | intP w v r nd => exact writes_of_intOut (itoaRadixPad_eq w v r nd h.2.2.1 h.1 h.2.1 h.2.2.2)
  | chr c => exact writes_of_exact fun buf => (C20_char c buf).1
  | str s => exact writes_str s
  | bool b =>
    refine writes_of_exact fun buf => ?_
    have := (C20_bool true b buf).1
    cases b <;> exact this
  | boolalpha b => exact writes_str _
  | ptr a =>
    refine writes_of_intOut (v := a) fun buf => ?_
    exact itoaRadix_eq .w64 a 16 (by simp [isRadix]) (by have : (W.minI .w64 : Int) = -(2 ^ 63) := by decide
                                                         rw [this]; exact h.1) h.2 buf

/-! ### Sequencing -/

/-- One writer after the other on the rest of the buffer. -/
def seqW (f g : Writer) : Writer := fun buf => do
  let (num, b) ← f buf
  let (n, b) ← writeRest b num g
  .ok (num + n, b)

theorem overwrite_append {t u buf : List Nat} :
    t ++ overwrite u (buf.drop t.length) = overwrite (t ++ u) buf := by
  simp [overwrite]

/-- Both texts one after the other; the first one is in place as soon as it fits, whatever happens to the second. -/
theorem seqW_spec {f g : Writer} {t u : List Nat} (hf : Writes f t) (hg : Writes g u) (buf : List Nat) :
    ∃ b, seqW f g buf = .ok (t.length + u.length, b) ∧ b.length = buf.length ∧
      (t.length ≤ buf.length → b.take t.length = t ∧ ∃ b2, g (buf.drop t.length) = .ok (u.length, b2) ∧ b = t ++ b2) ∧
      (t.length + u.length ≤ buf.length → b = overwrite (t ++ u) buf) := by
  obtain ⟨b, e, hl, hfit⟩ := hf buf
  unfold seqW writeRest
  rw [e, Res.ok_bind]
  by_cases h : t.length ≤ buf.length
  · have hb := hfit h
    subst hb
    obtain ⟨b2, e2, hl2, hfit2⟩ := hg (buf.drop t.length)
    simp only [hl, ge_iff_le, if_pos h]
    unfold onSub
    rw [if_pos (by rw [hl]; exact h), overwrite_drop, e2, Res.ok_bind, overwrite_take, Res.ok_bind]
    refine ⟨_, rfl, by simp at hl2 ⊢; omega, fun _ => ⟨by simp, _, rfl, rfl⟩, fun hs => ?_⟩
    rw [hfit2 (by simp; omega), overwrite_append]
  · obtain ⟨b2, e2, _, _⟩ := hg []
    simp only [hl, ge_iff_le, if_neg h]
    rw [e2, Res.ok_bind, Res.ok_bind]
    exact ⟨_, rfl, hl, fun hs => absurd hs h, fun hs => by omega⟩

theorem seqW_writes {f g : Writer} {t u : List Nat} (hf : Writes f t) (hg : Writes g u) : Writes (seqW f g) (t ++ u) := by
  intro buf
  obtain ⟨b, e, hl, _, hfit⟩ := seqW_spec hf hg buf
  exact ⟨b, by rw [e, List.length_append], hl, fun h => hfit (by simpa using h)⟩

/-- Pairs of a writer and its text. -/
def Items (l : List (Writer × List Nat)) : Prop := ∀ p ∈ l, Writes p.1 p.2

theorem Items.cons {p : Writer × List Nat} {l : List (Writer × List Nat)} (h : Items (p :: l)) : Writes p.1 p.2 ∧ Items l :=
  ⟨h p (by simp), fun q hq => h q (by simp [hq])⟩

/-! ### C49 -/

/-- **C49**: for any number of arguments, each a bounded writer of its text, `cat` is a bounded writer of the concatenation. -/
theorem C49_cat (l : List (Writer × List Nat)) (h : Items l) : Writes (cat (l.map (·.1))) (l.map (·.2)).flatten := by
  induction l with
  | nil => exact fun buf => ⟨buf, rfl, rfl, fun _ => rfl⟩
  | cons p l ih => exact seqW_writes h.cons.1 (ih h.cons.2)

/-- **C49** for the library's own argument types. -/
theorem C49_cat_args (l : List Arg) (h : ∀ a ∈ l, a.Valid) : Writes (cat (l.map Arg.toChars)) (l.map Arg.text).flatten := by
  have := C49_cat (l.map fun a => (a.toChars, a.text)) (by
    intro p hp
    obtain ⟨a, ha, rfl⟩ := List.mem_map.mp hp
    exact a.writes (h a ha))
  simpa [Function.comp_def] using this

/-- **C49**: any initial arguments whose text fits are completely in place, even if the others do not fit. -/
theorem C49_prefix (l r : List (Writer × List Nat)) (hl : Items l) (hr : Items r) (buf : List Nat)
    (hfit : (l.map (·.2)).flatten.length ≤ buf.length) :
    ∃ n b, cat ((l ++ r).map (·.1)) buf = .ok (n, b) ∧ (l.map (·.2)).flatten <+: b := by
  induction l generalizing buf with
  | nil =>
    obtain ⟨b, e, _⟩ := C49_cat r hr buf
    exact ⟨_, b, e, by simp⟩
  | cons p l ih =>
    have hfit' : p.2.length + (l.map (·.2)).flatten.length ≤ buf.length := by simpa using hfit
    have hrest : Items (l ++ r) := fun q hq => by
      rcases List.mem_append.mp hq with h | h
      · exact hl.cons.2 q h
      · exact hr q h
    obtain ⟨b, e, _, h1, _⟩ := seqW_spec hl.cons.1 (C49_cat (l ++ r) hrest) buf
    obtain ⟨_, b2, e2, rfl⟩ := h1 (by omega)
    obtain ⟨n, b3, e3, hp⟩ := ih hl.cons.2 (buf.drop p.2.length) (by simp; simp at hfit'; omega)
    rw [e2] at e3
    cases e3
    exact ⟨_, _, e, by simpa using hp⟩

/-- **C49** for `cat_sub`, `catsep_sub`, `format_sub`: the view covers exactly the text if it fits; otherwise the error
callback is called. -/
theorem C49_view {f : Writer} {t : List Nat} (h : Writes f t) (buf : List Nat) :
    if t.length ≤ buf.length then viewOf f buf = .ok (t.length, overwrite t buf) else viewOf f buf = .abort := by
  obtain ⟨b, e, _, hfit⟩ := h buf
  unfold viewOf
  rw [e, Res.ok_bind]
  split
  · rename_i hl
    simp only [if_pos hl, hfit hl]
  · rename_i hl
    simp only [if_neg hl]

example : cat ([.str (S "ab"), .int .w32 (-12), .chr 58, .uintR .w8 255 16].map Arg.toChars) (S "............") =
    .ok (10, S "ab-12:0xff..") := by decide +kernel
/- the integer does not fit, its sign is written all the same -/
example : cat ([.str (S "ab"), .intR .w32 (-12) 16, .str (S "xyz")].map Arg.toChars) (S "....") = .ok (9, S "ab-.") := by
  decide +kernel

/-! ### C50 -/

theorem catsepMore_eq (sep a : Writer) (l : List Writer) :
    catsepMore sep (a :: l) = seqW sep (seqW a (catsepMore sep l)) := rfl

theorem catsepMore_writes {sep : Writer} {st : List Nat} (hs : Writes sep st) (l : List (Writer × List Nat)) (h : Items l) :
    Writes (catsepMore sep (l.map (·.1))) (l.map (fun p => st ++ p.2)).flatten := by
  induction l with
  | nil => exact fun buf => ⟨buf, rfl, rfl, fun _ => rfl⟩
  | cons p l ih =>
    have := seqW_writes hs (seqW_writes h.cons.1 (ih h.cons.2))
    simpa [catsepMore_eq, List.append_assoc] using this

theorem separated_cons (sep a : List Nat) (l : List (List Nat)) :
    separated sep (a :: l) = a ++ (l.map (fun t => sep ++ t)).flatten := by
  induction l generalizing a with
  | nil => simp [separated]
  | cons b l ih => simp [separated, ih]

/-- **C50**: for any number of arguments, `catsep` is a bounded writer of the texts with the separator between them. -/
theorem C50_catsep {sep : Writer} {st : List Nat} (hs : Writes sep st) (l : List (Writer × List Nat)) (h : Items l) :
    Writes (catsep sep (l.map (·.1))) (separated st (l.map (·.2))) := by
  cases l with
  | nil => exact fun buf => ⟨buf, rfl, rfl, fun _ => rfl⟩
  | cons p l =>
    have := seqW_writes h.cons.1 (catsepMore_writes hs l h.cons.2)
    rw [List.map_cons, List.map_cons, separated_cons, List.map_map]
    exact this

/-- **C50** for the library's own argument types. -/
theorem C50_catsep_args (sep : Arg) (hs : sep.Valid) (l : List Arg) (h : ∀ a ∈ l, a.Valid) :
    Writes (catsep sep.toChars (l.map Arg.toChars)) (separated sep.text (l.map Arg.text)) := by
  have := C50_catsep (sep.writes hs) (l.map fun a => (a.toChars, a.text)) (by
    intro p hp
    obtain ⟨a, ha, rfl⟩ := List.mem_map.mp hp
    exact a.writes (h a ha))
  simpa [Function.comp_def] using this

example : catsep (Arg.toChars (.str (S ", "))) ([.bool true, .boolalpha false, .ptr 255].map Arg.toChars) (S "...............") =
    .ok (14, S "1, false, 0xff.") := by decide +kernel

/-! ### C51 -/

/-- **C51**: for every format string and any number of arguments, `format` is a bounded writer of a text that is the
substitution of the arguments in the format string. -/
theorem C51_format (fmt : List Nat) (l : List (Writer × List Nat)) (h : Items l) :
    ∃ out, Subst fmt (l.map (·.2)) out ∧ Writes (format fmt (l.map (·.1))) out := by
  induction l generalizing fmt with
  | nil => exact ⟨fmt, .noargs, writes_str fmt⟩
  | cons p l ih =>
    obtain ⟨r, e, h1, h2⟩ := C29_find fmt [123, 125] 0
    cases r with
    | none =>
      refine ⟨fmt, .nomark fun i => h2.mp rfl i (Nat.zero_le _), fun buf => ?_⟩
      simp only [List.map_cons, format]
      rw [e, Res.ok_bind]
      exact writes_str fmt buf
    | some pos =>
      obtain ⟨_, ⟨pre, post, e1, e2⟩, h3⟩ := (h1 pos).mp rfl
      have e1' : fmt = pre ++ mark ++ post := e1
      have hd : fmt.drop (pos + 2) = post := by
        rw [e1, ← e2]; exact List.drop_left' (by simp)
      have ht : fmt.take pos = pre := by
        rw [e1, ← e2, List.append_assoc]; exact List.take_left' rfl
      obtain ⟨out, o1, o2⟩ := ih post h.cons.2
      refine ⟨pre ++ p.2 ++ out, ?_, ?_⟩
      · rw [e1']
        exact .step (fun i hi => e1' ▸ h3 i (Nat.zero_le _) (e2 ▸ hi)) o1
      · have := seqW_writes (writes_str pre) (seqW_writes h.cons.1 o2)
        rw [List.append_assoc]
        intro buf
        simp only [List.map_cons, format]
        rw [e, Res.ok_bind]
        simp only [hd, ht]
        exact this buf

/-- **C51** for the library's own argument types; together with the uniqueness of the substituted text
(`Spec.Subst.unique`) this determines the output. -/
theorem C51_format_args (fmt : List Nat) (l : List Arg) (h : ∀ a ∈ l, a.Valid) {out : List Nat}
    (ho : Subst fmt (l.map Arg.text) out) : Writes (format fmt (l.map Arg.toChars)) out := by
  obtain ⟨out', h1, h2⟩ := C51_format fmt (l.map fun a => (a.toChars, a.text)) (by
    intro p hp
    obtain ⟨a, ha, rfl⟩ := List.mem_map.mp hp
    exact a.writes (h a ha))
  simp only [List.map_map, Function.comp_def] at h1 h2
  rw [ho.unique h1]
  exact h2

example : format (S "{{}} drank {} {}") ([.str (S "x"), .int .w32 5].map Arg.toChars) (S "....................") =
    .ok (14, S "{x} drank 5 {}......") := by decide +kernel
example : format (S "a{}b") ([.int .w8 7, .int .w8 8].map Arg.toChars) (S "..") = .ok (3, S "a7") := by decide +kernel
example : Subst (S "a{}b") [S "7", S "8"] (S "a7b") :=
  .step (pre := S "a") (post := S "b") (a := S "7") (out := S "b")
    (by intro i hi; rw [occursAt_iff]; have : i = 0 := by simpa [S] using hi
        subst this; decide +kernel)
    (.nomark fun i hi => by have := (occursAt_iff.mp hi).1; simp [S, mark] at this)

/-! ### C52 -/

theorem resize_overwrite {t b : List Nat} (h : t.length ≤ b.length) : resize (overwrite t b) t.length = t := by
  unfold resize
  rw [overwrite_take, overwrite_length h]
  have : t.length - b.length = 0 := by omega
  rw [this]; simp

theorem resize_length (c : List Nat) (n : Nat) : (resize c n).length = n := by
  simp [resize]; omega

/-- **C52**: with any initial contents, a resizing writer needs at most two attempts (fuel 2) and leaves exactly the
text in the container. -/
theorem C52_resizing {f : Writer} {t : List Nat} (h : Writes f t) (cont : List Nat) (k : Nat) : writeRs f (k + 2) cont = .ok t := by
  obtain ⟨b, e, hl, hfit⟩ := h cont
  unfold writeRs
  rw [e, Res.ok_bind]
  by_cases hlen : t.length ≤ cont.length
  · simp only [gt_iff_lt, if_neg (show ¬ cont.length < t.length by omega)]
    rw [hfit hlen, resize_overwrite hlen]
  · simp only [gt_iff_lt, if_pos (show cont.length < t.length by omega)]
    obtain ⟨b2, e2, hl2, hfit2⟩ := h (resize b t.length)
    have hr := resize_length b t.length
    unfold writeRs
    rw [e2, Res.ok_bind]
    simp only [hr, gt_iff_lt, Nat.lt_irrefl, if_false]
    rw [hfit2 (by omega), resize_overwrite (by omega)]

/-- **C52**: if the text fits the container, one attempt is enough. -/
theorem C52_resizing_fits {f : Writer} {t : List Nat} (h : Writes f t) (cont : List Nat) (k : Nat)
    (hlen : t.length ≤ cont.length) : writeRs f (k + 1) cont = .ok t := by
  obtain ⟨b, e, hl, hfit⟩ := h cont
  unfold writeRs
  rw [e, Res.ok_bind]
  simp only [gt_iff_lt, if_neg (show ¬ cont.length < t.length by omega)]
  rw [hfit hlen, resize_overwrite hlen]

theorem resize_append (A B : List Nat) (n : Nat) : resize (A ++ B) (A.length + n) = A ++ resize B n := by
  unfold resize
  rw [List.take_length_add_append, List.append_assoc]
  congr 3
  simp; omega

theorem append_step {f : Writer} {t A B b : List Nat} (e : f B = .ok (t.length, b)) (k : Nat) :
    writeRsAppend f A.length (k + 1) (A ++ B) =
      if t.length > B.length then writeRsAppend f A.length k (A ++ resize b t.length)
      else .ok (A ++ resize b t.length, A.length, t.length) := by
  conv => lhs; unfold writeRsAppend
  unfold onSub
  rw [if_pos (by simp)]
  rw [List.drop_left, List.take_left, e, Res.ok_bind, Res.ok_bind]
  simp only [resize_append, List.length_append, Nat.add_sub_cancel_left, resize_length]

/-- **C52**: the append variants keep the previous contents, append exactly the text, and return a view of it, in at most
two attempts. -/
theorem C52_append {f : Writer} {t : List Nat} (h : Writes f t) (cont : List Nat) (k : Nat) :
    writeRsAppend f cont.length (k + 2) cont = .ok (cont ++ t, cont.length, t.length) := by
  obtain ⟨b, e, hl, hfit⟩ := h []
  have h1 := append_step (A := cont) e (k + 1)
  rw [List.append_nil] at h1
  rw [h1]
  obtain ⟨b2, e2, hl2, hfit2⟩ := h (resize b t.length)
  have hr := resize_length b t.length
  by_cases ht : t.length > ([] : List Nat).length
  · rw [if_pos ht, append_step e2, if_neg (by omega), hfit2 (by omega), resize_overwrite (by omega)]
  · rw [if_neg ht]
    have : t = [] := by cases t; rfl; simp at ht
    subst this
    have : b = [] := by simpa using hl
    subst this
    rfl

/-- **C52**: the resizing variants of the three functions, for the library's own argument types. -/
theorem C52_args (l : List Arg) (h : ∀ a ∈ l, a.Valid) (sep : Arg) (hs : sep.Valid) (fmt : List Nat) {out : List Nat}
    (ho : Subst fmt (l.map Arg.text) out) (cont : List Nat) :
    writeRs (cat (l.map Arg.toChars)) 2 cont = .ok (l.map Arg.text).flatten ∧
    writeRs (catsep sep.toChars (l.map Arg.toChars)) 2 cont = .ok (separated sep.text (l.map Arg.text)) ∧
    writeRs (format fmt (l.map Arg.toChars)) 2 cont = .ok out ∧
    writeRsAppend (cat (l.map Arg.toChars)) cont.length 2 cont =
      .ok (cont ++ (l.map Arg.text).flatten, cont.length, (l.map Arg.text).flatten.length) ∧
    writeRsAppend (catsep sep.toChars (l.map Arg.toChars)) cont.length 2 cont =
      .ok (cont ++ separated sep.text (l.map Arg.text), cont.length, (separated sep.text (l.map Arg.text)).length) ∧
    writeRsAppend (format fmt (l.map Arg.toChars)) cont.length 2 cont = .ok (cont ++ out, cont.length, out.length) :=
  ⟨C52_resizing (C49_cat_args l h) cont 0, C52_resizing (C50_catsep_args sep hs l h) cont 0,
    C52_resizing (C51_format_args fmt l h ho) cont 0, C52_append (C49_cat_args l h) cont 0,
    C52_append (C50_catsep_args sep hs l h) cont 0, C52_append (C51_format_args fmt l h ho) cont 0⟩

example : writeRsAppend (cat ([.str (S "ab"), .int .w32 (-12)].map Arg.toChars)) 1 2 (S "x") = .ok (S "xab-12", 1, 5) := by
  decide +kernel
example : writeRs (cat ([.str (S "ab"), .int .w32 (-12)].map Arg.toChars)) 2 (S "previous contents") = .ok (S "ab-12") := by
  decide +kernel

end C4
