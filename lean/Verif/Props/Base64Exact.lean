import Verif.Props.Base64

/-! # C58 for all texts

`base64_decode` looks its characters up in a table of 128 entries (/repo/src/c4/base64.cpp:160-165). Without the assertion on
`base64_valid` a character from 128 on is looked up outside the table. Which characters are looked up at all depends on the
padding: those of a quartet with `=` in its third place, from there on nothing is. -/

namespace C4

/-- The characters of a text which stand for data: the quartets up to the first one with `=` in its third or fourth place, and
of this one the characters before the `=`. -/
def Spec.dataChars : List Nat → List Nat
  | a :: b :: c :: d :: r =>
    if c = 61 then [a, b] else if d = 61 then [a, b, c] else a :: b :: c :: d :: Spec.dataChars r
  | _ => []

open Spec

theorem bVal_ub (sgn : Bool) (val shift : Nat) {c : Nat} (h : 128 ≤ c) : bVal sgn val c shift = .ub := by
  unfold bVal
  rw [rd_ub (by simp [charToSextet]; omega)]
  rfl

theorem decodeFrom_quartet (sgn : Bool) {a b c e : Nat} (r : List Nat) (hc : c ≠ 61) (he : e ≠ 61)
    (ha : a < 128) (hb : b < 128) (hc' : c < 128) (he' : e < 128) :
    ∃ o : List Nat, ∀ acc buf,
      base64DecodeLoop sgn (a :: b :: c :: e :: r) (stamp acc buf, acc.length) =
        base64DecodeLoop sgn r (stamp (acc ++ o) buf, (acc ++ o).length) := by
  obtain ⟨v1, e1⟩ := bVal_ascii sgn 0 0 he'
  obtain ⟨v2, e2⟩ := bVal_ascii sgn v1 1 hc'
  obtain ⟨v3, e3⟩ := bVal_ascii sgn v2 2 hb
  obtain ⟨v4, e4⟩ := bVal_ascii sgn v3 3 ha
  refine ⟨[(v4 >>> 16) &&& 255, (v4 >>> 8) &&& 255, v4 &&& 255], fun acc buf => ?_⟩
  rw [base64DecodeLoop, if_neg (by omega), e1, Res.ok_bind, e2, Res.ok_bind, e3, Res.ok_bind, e4, Res.ok_bind,
    bAppend_stamp, Res.ok_bind, bAppend_stamp, Res.ok_bind, bAppend_stamp, Res.ok_bind]
  simp

/-- The loop and the last quartet. -/
def decodeBoth (sgn : Bool) (s : List Nat) (st : BufPos) : Res BufPos :=
  base64DecodeLoop sgn s st >>= fun x => base64DecodeTail sgn x.1 x.2

theorem decodeBoth_all (sgn : Bool) (s : List Nat) (h4 : s.length % 4 = 0) :
    ((∀ c ∈ dataChars s, c < 128) →
      ∃ out, ∀ acc buf, decodeBoth sgn s (stamp acc buf, acc.length) = .ok (stamp (acc ++ out) buf, (acc ++ out).length)) ∧
    ((∃ c ∈ dataChars s, 128 ≤ c) → ∀ acc buf, decodeBoth sgn s (stamp acc buf, acc.length) = .ub) := by
  match s, h4 with
  | [], _ =>
    refine ⟨fun _ => ⟨[], fun acc buf => by simp [decodeBoth, base64DecodeLoop, base64DecodeTail]⟩, ?_⟩
    simp [dataChars]
  | [_], h4 => simp at h4
  | [_, _], h4 => simp at h4
  | [_, _, _], h4 => simp at h4
  | a :: b :: c :: e :: r, h4 =>
    have hl : ¬ (a :: b :: c :: e :: r).length = 0 := by simp
    have hstop : ∀ st : BufPos, (c = 61 ∨ e = 61) → decodeBoth sgn (a :: b :: c :: e :: r) st =
        base64DecodeTail sgn (a :: b :: c :: e :: r) st := by
      intro st h
      unfold decodeBoth
      rw [base64DecodeLoop, if_pos h, Res.ok_bind]
    by_cases h1 : c = 61
    · have hd : dataChars (a :: b :: c :: e :: r) = [a, b] := by rw [dataChars, if_pos h1]
      rw [hd]
      refine ⟨fun h => ?_, fun h acc buf => ?_⟩
      · obtain ⟨v1, e1⟩ := bVal_ascii sgn 0 2 (h b (by simp))
        obtain ⟨v2, e2⟩ := bVal_ascii sgn v1 3 (h a (by simp))
        refine ⟨[(v2 >>> 16) &&& 255], fun acc buf => ?_⟩
        rw [hstop _ (.inl h1)]
        unfold base64DecodeTail
        simp only [if_neg hl, rd, List.getElem?_cons_succ, List.getElem?_cons_zero, Res.ok_bind, if_pos h1]
        rw [e1, Res.ok_bind, e2, Res.ok_bind, bAppend_stamp]
      · rw [hstop _ (.inl h1)]
        unfold base64DecodeTail
        simp only [if_neg hl, rd, List.getElem?_cons_succ, List.getElem?_cons_zero, Res.ok_bind, if_pos h1]
        by_cases hb : 128 ≤ b
        · rw [bVal_ub sgn 0 2 hb]; rfl
        · obtain ⟨v1, e1⟩ := bVal_ascii sgn 0 2 (show b < 128 by omega)
          have ha : 128 ≤ a := by
            obtain ⟨x, hx, hx2⟩ := h
            rcases List.mem_cons.mp hx with rfl | hx
            · exact hx2
            · simp at hx; omega
          rw [e1, Res.ok_bind, bVal_ub sgn v1 3 ha]; rfl
    · by_cases h2 : e = 61
      · have hd : dataChars (a :: b :: c :: e :: r) = [a, b, c] := by rw [dataChars, if_neg h1, if_pos h2]
        rw [hd]
        refine ⟨fun h => ?_, fun h acc buf => ?_⟩
        · obtain ⟨v1, e1⟩ := bVal_ascii sgn 0 1 (h c (by simp))
          obtain ⟨v2, e2⟩ := bVal_ascii sgn v1 2 (h b (by simp))
          obtain ⟨v3, e3⟩ := bVal_ascii sgn v2 3 (h a (by simp))
          refine ⟨[(v3 >>> 16) &&& 255, (v3 >>> 8) &&& 255], fun acc buf => ?_⟩
          rw [hstop _ (.inr h2)]
          unfold base64DecodeTail
          simp only [if_neg hl, rd, List.getElem?_cons_succ, List.getElem?_cons_zero, Res.ok_bind, if_neg h1, if_pos h2]
          rw [e1, Res.ok_bind, e2, Res.ok_bind, e3, Res.ok_bind, bAppend_stamp, Res.ok_bind, bAppend_stamp]
          simp
        · rw [hstop _ (.inr h2)]
          unfold base64DecodeTail
          simp only [if_neg hl, rd, List.getElem?_cons_succ, List.getElem?_cons_zero, Res.ok_bind, if_neg h1, if_pos h2]
          by_cases hc : 128 ≤ c
          · rw [bVal_ub sgn 0 1 hc]; rfl
          · obtain ⟨v1, e1⟩ := bVal_ascii sgn 0 1 (show c < 128 by omega)
            rw [e1, Res.ok_bind]
            by_cases hb : 128 ≤ b
            · rw [bVal_ub sgn v1 2 hb]; rfl
            · obtain ⟨v2, e2⟩ := bVal_ascii sgn v1 2 (show b < 128 by omega)
              have ha : 128 ≤ a := by
                obtain ⟨x, hx, hx2⟩ := h
                simp only [List.mem_cons, List.not_mem_nil, or_false] at hx
                rcases hx with rfl | rfl | rfl <;> omega
              rw [e2, Res.ok_bind, bVal_ub sgn v2 3 ha]; rfl
      · have hd : dataChars (a :: b :: c :: e :: r) = a :: b :: c :: e :: dataChars r := by
          rw [dataChars, if_neg h1, if_neg h2]
        rw [hd]
        obtain ⟨ih1, ih2⟩ := decodeBoth_all sgn r (by simp at h4; omega)
        by_cases hq : a < 128 ∧ b < 128 ∧ c < 128 ∧ e < 128
        · obtain ⟨o, ho⟩ := decodeFrom_quartet sgn r h1 h2 hq.1 hq.2.1 hq.2.2.1 hq.2.2.2
          have hstep : ∀ acc buf, decodeBoth sgn (a :: b :: c :: e :: r) (stamp acc buf, acc.length) =
              decodeBoth sgn r (stamp (acc ++ o) buf, (acc ++ o).length) := by
            intro acc buf
            unfold decodeBoth
            rw [ho]
          refine ⟨fun h => ?_, fun h acc buf => ?_⟩
          · obtain ⟨out, ih⟩ := ih1 fun x hx => h x (by simp [hx])
            refine ⟨o ++ out, fun acc buf => ?_⟩
            rw [hstep, ih, List.append_assoc]
          · rw [hstep]
            refine ih2 ?_ _ _
            obtain ⟨x, hx, hx2⟩ := h
            simp only [List.mem_cons] at hx
            rcases hx with rfl | rfl | rfl | rfl | hx
            · omega
            · omega
            · omega
            · omega
            · exact ⟨x, hx, hx2⟩
        · refine ⟨fun h => absurd ⟨h a (by simp), h b (by simp), h c (by simp), h e (by simp)⟩ hq, fun _ acc buf => ?_⟩
          unfold decodeBoth
          rw [base64DecodeLoop, if_neg (by omega)]
          by_cases he : 128 ≤ e
          · rw [bVal_ub sgn 0 0 he]; rfl
          · obtain ⟨v1, e1⟩ := bVal_ascii sgn 0 0 (show e < 128 by omega)
            rw [e1, Res.ok_bind]
            by_cases hc : 128 ≤ c
            · rw [bVal_ub sgn v1 1 hc]; rfl
            · obtain ⟨v2, e2⟩ := bVal_ascii sgn v1 1 (show c < 128 by omega)
              rw [e2, Res.ok_bind]
              by_cases hb : 128 ≤ b
              · rw [bVal_ub sgn v2 2 hb]; rfl
              · obtain ⟨v3, e3⟩ := bVal_ascii sgn v2 2 (show b < 128 by omega)
                rw [e3, Res.ok_bind, bVal_ub sgn v3 3 (by omega)]; rfl

/-- **C58, for every text**: without the assertion on its validity, a text whose length is no multiple of four is reported; for
the others `base64_decode` reads outside its table exactly if one of the characters standing for data is above 127; and else
there is an output whose length is returned and of which as much as fits is stored, whatever the buffer. -/
theorem C58_exact (sgn : Bool) (s : List Nat) :
    (s.length % 4 ≠ 0 → ∀ buf, base64Decode sgn s buf = .abort) ∧
    (s.length % 4 = 0 → (∃ c ∈ dataChars s, 128 ≤ c) → ∀ buf, base64Decode sgn s buf = .ub) ∧
    (s.length % 4 = 0 → (∀ c ∈ dataChars s, c < 128) →
      ∃ out, ∀ buf, base64Decode sgn s buf = .ok (out.length, stamp out buf)) := by
  have key : s.length % 4 = 0 → ∀ buf, base64Decode sgn s buf =
      (decodeBoth sgn s (stamp [] buf, ([] : List Nat).length) >>= fun x => .ok (x.2, x.1)) := by
    intro h buf
    unfold base64Decode decodeBoth
    rw [and_3, if_pos h, stamp_nil]
    cases base64DecodeLoop sgn s (buf, 0) <;> rfl
  refine ⟨fun h buf => ?_, fun h hc buf => ?_, fun h hc => ?_⟩
  · unfold base64Decode
    rw [and_3, if_neg h]
  · rw [key h, (decodeBoth_all sgn s h).2 hc [] buf]; rfl
  · obtain ⟨out, ho⟩ := (decodeBoth_all sgn s h).1 hc
    refine ⟨out, fun buf => ?_⟩
    rw [key h, ho [] buf]
    rfl

/-- **C58 is false** for texts with characters above 127, if they stand for data; after the padding they are not looked at. -/
theorem C58_refuted : base64Decode true [65, 65, 65, 200] [0, 0, 0] = .ub ∧ base64Decode false [65, 65, 65, 200] [0, 0, 0] = .ub ∧
    base64Decode true [65, 65, 61, 200] [7, 7] = .ok (1, [0, 7]) := by
  decide +kernel

example : dataChars (S "QUJDRA==QUJD") = S "QUJDRA" := by decide +kernel

end C4
