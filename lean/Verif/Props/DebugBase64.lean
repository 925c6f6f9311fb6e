import Verif.Debug.Base64
import Verif.Spec.Base64Assert
import Verif.Props.Base64
import Verif.Props.DebugRead
/-
C163: the assertions of base64.
-/
namespace C4
open Spec

theorem bAppendIdxD_eq (st : BufPos) (v : Nat) : bAppendIdxD st (v &&& 63) = bAppendIdx st (v &&& 63) := by
  have h : v &&& 63 < sextetToChar.length := by
    have : v &&& 63 ≤ 63 := Nat.and_le_right
    have e : sextetToChar.length = 64 := by decide +kernel
    omega
  unfold bAppendIdxD bAppendIdx
  rw [assertThat_pos h]
  rfl

theorem encodeLoopD_eq (d : List Nat) (st : BufPos) : base64EncodeLoopD d st = base64EncodeLoop d st := by
  match d, st with
  | d0 :: d1 :: d2 :: d, st =>
    rw [base64EncodeLoopD, base64EncodeLoop]
    simp only [bAppendIdxD_eq, encodeLoopD_eq d]
  | [d0, d1], st => simp only [base64EncodeLoopD, base64EncodeLoop, bAppendIdxD_eq, assertThat_pos (show [d0, d1].length < 3 by simp), Res.ok_bind]
  | [d0], st => simp only [base64EncodeLoopD, base64EncodeLoop, bAppendIdxD_eq, assertThat_pos (show [d0].length < 3 by simp), Res.ok_bind]
  | [], st => simp only [base64EncodeLoopD, base64EncodeLoop, assertThat_pos (show ([] : List Nat).length < 3 by simp), Res.ok_bind]

/-- C163: no assertion of `base64_encode` fails, whatever the bytes and the buffer. -/
theorem C163_encode (data : List Nat) (hd : Bytes data) (buf : List Nat) :
    base64EncodeD data buf = .ok ((base64Text data).length, stamp (base64Text data) buf) := by
  rw [← C56_encode data hd buf]
  unfold base64EncodeD base64Encode
  rw [encodeLoopD_eq]

example : base64EncodeD (S "c4core") (S "........") = .ok (8, S "YzRjb3Jl") := by decide +kernel

theorem bValD_eq (sgn : Bool) (val shift : Nat) {c : Nat} (h : c < 128) : bValD sgn val c shift = bVal sgn val c shift := by
  unfold bValD
  rw [assertThat_pos (c := ¬ (sgn = true ∧ c ≥ 128)) (by omega), assertThat_pos (c := c < charToSextet.length) (by simpa [charToSextet] using h)]
  rfl

theorem padded_nil : PaddedAtEnd [] := by intro i h; simp at h

theorem padded_four {a b c e : Nat} {r : List Nat} :
    PaddedAtEnd (a :: b :: c :: e :: r) ↔ (c = 61 → r = [] ∧ e = 61) ∧ (e = 61 → r = []) ∧ PaddedAtEnd r := by
  have len : ∀ n, n = (a :: b :: c :: e :: r).length ↔ n = r.length + 4 := by intro n; simp
  constructor
  · intro h
    refine ⟨fun hc => ?_, fun he => ?_, fun i hi => ?_⟩
    · obtain ⟨h1, h2⟩ := (h 2 (by simp [hc])).1 rfl
      rw [len] at h1
      exact ⟨List.length_eq_zero_iff.mp (by omega), by simpa using h2⟩
    · have h1 := (h 3 (by simp [he])).2 rfl
      rw [len] at h1
      exact List.length_eq_zero_iff.mp (by omega)
    · have := h (i + 4) (by simpa using hi)
      simp only [len] at this
      refine ⟨fun hm => ?_, fun hm => ?_⟩
      · obtain ⟨h1, h2⟩ := this.1 (by omega)
        refine ⟨by omega, ?_⟩
        rw [show i + 4 + 1 = (i + 1) + 4 by omega] at h2
        simpa using h2
      · have := this.2 (by omega)
        omega
  · rintro ⟨h1, h2, h3⟩ i hi
    simp only [len]
    match i with
    | 0 => exact ⟨by omega, by omega⟩
    | 1 => exact ⟨by omega, by omega⟩
    | 2 =>
      have hc : c = 61 := by simpa using hi
      obtain ⟨rfl, rfl⟩ := h1 hc
      exact ⟨fun _ => ⟨rfl, by simp⟩, by omega⟩
    | 3 =>
      have he : e = 61 := by simpa using hi
      have := h2 he
      subst this
      exact ⟨by omega, fun _ => rfl⟩
    | i + 4 =>
      have := h3 i (by simpa using hi)
      refine ⟨fun hm => ?_, fun hm => ?_⟩
      · obtain ⟨g1, g2⟩ := this.1 (by omega)
        refine ⟨by omega, ?_⟩
        rw [show i + 4 + 1 = (i + 1) + 4 by omega]
        simpa using g2
      · have := this.2 (by omega)
        omega

theorem bAppend_okD (st : BufPos) (c : Nat) : ∃ st', bAppend st c = .ok st' := by
  unfold bAppend
  split
  · next h => rw [wr_ok h, Res.ok_bind]; exact ⟨_, rfl⟩
  · exact ⟨_, rfl⟩

/-- The loop and the last quartet. -/
theorem decodeFromD_eq (sgn : Bool) (s : List Nat) (hs : ∀ c ∈ s, c < 128) (h4 : s.length % 4 = 0) (st : BufPos) :
    (PaddedAtEnd s → (base64DecodeLoopD sgn s st).bind (fun x => base64DecodeTailD sgn x.1 x.2) =
      (base64DecodeLoop sgn s st).bind (fun x => base64DecodeTail sgn x.1 x.2)) ∧
    (¬ PaddedAtEnd s → (base64DecodeLoopD sgn s st).bind (fun x => base64DecodeTailD sgn x.1 x.2) = .abort) := by
  match s, hs, h4 with
  | [], _, _ => exact ⟨fun _ => rfl, fun h => absurd padded_nil h⟩
  | [_], _, h4 => simp at h4
  | [_, _], _, h4 => simp at h4
  | [_, _, _], _, h4 => simp at h4
  | a :: b :: c :: e :: r, hs, h4 =>
    have ha := hs a (by simp)
    have hb := hs b (by simp)
    have hc := hs c (by simp)
    have he := hs e (by simp)
    rw [padded_four, base64DecodeLoopD, base64DecodeLoop]
    by_cases h : c = 61 ∨ e = 61
    · rw [if_pos h, if_pos h]
      by_cases hr : r = []
      · subst hr
        rw [assertThat_pos (c := ([] : List Nat).length = 0) rfl]
        simp only [Res.ok_bind, Res.bind]
        unfold base64DecodeTailD base64DecodeTail
        have hl : ¬ [a, b, c, e].length = 0 := by simp
        simp only [if_neg hl, rd, List.getElem?_cons_succ, List.getElem?_cons_zero, Res.ok_bind]
        have h4' : assertThat ([a, b, c, e].length = 4) = .ok () := assertThat_pos rfl
        by_cases hc' : c = 61
        · simp only [if_pos hc', h4', Res.ok_bind]
          by_cases he' : e = 61
          · rw [assertThat_pos he']
            refine ⟨fun _ => ?_, fun hn => ?_⟩
            · simp only [Res.ok_bind, bValD_eq sgn _ _ ha, bValD_eq sgn _ _ hb]
            · exact absurd ⟨fun _ => ⟨trivial, he'⟩, fun _ => trivial, padded_nil⟩ hn
          · rw [assertThat_neg he']
            exact ⟨fun hp => absurd (hp.1 hc').2 he', fun _ => rfl⟩
        · have he' : e = 61 := by tauto
          simp only [if_neg hc', if_pos he', h4', Res.ok_bind, bValD_eq sgn _ _ ha, bValD_eq sgn _ _ hb, bValD_eq sgn _ _ hc]
          refine ⟨fun _ => trivial, fun hn => ?_⟩
          exact absurd ⟨fun h => absurd h hc', fun _ => trivial, padded_nil⟩ hn
      · rw [assertThat_neg (c := r.length = 0) (by simpa using hr)]
        refine ⟨fun hp => ?_, fun _ => rfl⟩
        rcases h with h | h
        · exact absurd (hp.1 h).1 hr
        · exact absurd (hp.2.1 h) hr
    · rw [if_neg h, if_neg h]
      obtain ⟨v1, e1⟩ := bVal_ascii sgn 0 0 he
      obtain ⟨v2, e2⟩ := bVal_ascii sgn v1 1 hc
      obtain ⟨v3, e3⟩ := bVal_ascii sgn v2 2 hb
      obtain ⟨v4, e4⟩ := bVal_ascii sgn v3 3 ha
      obtain ⟨s1, f1⟩ := bAppend_okD st ((v4 >>> 16) &&& 255)
      obtain ⟨s2, f2⟩ := bAppend_okD s1 ((v4 >>> 8) &&& 255)
      obtain ⟨s3, f3⟩ := bAppend_okD s2 (v4 &&& 255)
      rw [bValD_eq sgn _ _ he, e1, Res.ok_bind, Res.ok_bind, bValD_eq sgn _ _ hc, e2, Res.ok_bind, Res.ok_bind, bValD_eq sgn _ _ hb, e3, Res.ok_bind, Res.ok_bind,
        bValD_eq sgn _ _ ha, e4, Res.ok_bind, Res.ok_bind, f1, Res.ok_bind, Res.ok_bind, f2, Res.ok_bind, Res.ok_bind, f3, Res.ok_bind, Res.ok_bind]
      have ih := decodeFromD_eq sgn r (fun x hx => hs x (by simp [hx])) (by simp at h4; omega) s3
      push Not at h
      refine ⟨fun hp => ih.1 hp.2.2, fun hn => ih.2 fun hr => hn ⟨fun g => absurd g h.1, fun g => absurd g h.2, hr⟩⟩

/-- C163: `base64_decode` fails an assertion exactly for the texts that are not groups of four characters of the alphabet or `=` with the padding at the
end; for the others it gives what it gives without assertions. -/
theorem C163_decode_partial (sgn : Bool) (s : List Nat) (hs : ∀ c ∈ s, sgn = true ∨ c < 128) (buf : List Nat) :
    (AssertedBase64 s → base64DecodeD sgn s buf = base64Decode sgn s buf ∧ ∃ out, base64Decode sgn s buf = .ok (out.length, stamp out buf)) ∧
    (¬ AssertedBase64 s → base64DecodeD sgn s buf = .abort) := by
  obtain ⟨v, hv, hv'⟩ := C59_valid_partial sgn s hs
  unfold base64DecodeD
  rw [hv, Res.ok_bind]
  by_cases hval : v = true
  · obtain ⟨h4, hc⟩ := hv'.mp hval
    have hlt : ∀ c ∈ s, c < 128 := by
      intro c hcs
      rcases hc c hcs with ⟨i, hi, rfl⟩ | rfl
      · exact letter_lt i hi
      · omega
    have key := decodeFromD_eq sgn s hlt h4 (buf, 0)
    obtain ⟨out, hout⟩ := C58_valid sgn s (by rw [hv, hval])
    rw [assertThat_pos hval, Res.ok_bind]
    have e1 : ∀ f : List Nat × BufPos → Res BufPos, ∀ x : Res (List Nat × BufPos),
        (do let (d, st) ← x; let (b, pos) ← f (d, st); .ok (pos, b) : Res (Nat × List Nat)) = (x.bind f).bind fun y => .ok (y.2, y.1) := by
      intro f x; cases x <;> rfl
    have hand : s.length &&& 3 = 0 := by rw [and_3]; exact h4
    have eD := e1 (fun x => base64DecodeTailD sgn x.1 x.2) (base64DecodeLoopD sgn s (buf, 0))
    have eR := e1 (fun x => base64DecodeTail sgn x.1 x.2) (base64DecodeLoop sgn s (buf, 0))
    rw [if_pos hand]
    refine ⟨fun ha => ⟨?_, out, hout buf⟩, fun hn => ?_⟩
    · unfold base64Decode
      rw [if_pos hand]
      exact (eD.trans (by rw [key.1 ha.2.2])).trans eR.symm
    · exact eD.trans (by rw [key.2 fun hp => hn ⟨h4, hc, hp⟩]; rfl)
  · rw [assertThat_neg hval]
    exact ⟨fun ha => absurd (hv'.mpr ⟨ha.1, ha.2.1⟩) hval, fun _ => rfl⟩

theorem wf_asserted {t : List Nat} (h : Base64WF t) : AssertedBase64 t := by
  refine ⟨wf_length h, wf_chars h, ?_⟩
  have key : ∀ {x}, Base64Char x → x ≠ 61 := by rintro x ⟨i, hi, rfl⟩; exact letter_ne_pad i hi
  induction h with
  | nil => exact padded_nil
  | pad1 _ _ hc => exact padded_four.mpr ⟨fun h => absurd h (key hc), fun _ => rfl, padded_nil⟩
  | pad2 _ _ => exact padded_four.mpr ⟨fun _ => ⟨rfl, rfl⟩, fun _ => rfl, padded_nil⟩
  | quartet _ _ hc hd _ ih => exact padded_four.mpr ⟨fun h => absurd h (key hc), fun h => absurd h (key hd), ih⟩

/-- C163: so every well formed text is decoded, and in particular every text that was encoded. -/
theorem C163_wellformed (sgn : Bool) {t : List Nat} (h : Base64WF t) : ∃ data, DecodesTo t data ∧ ∀ buf, base64DecodeD sgn t buf = .ok (data.length, stamp data buf) := by
  obtain ⟨data, h1, _, h3⟩ := C86_decode sgn h
  have hlt : ∀ c ∈ t, sgn = true ∨ c < 128 := by
    intro c hc
    right
    rcases wf_chars h c hc with ⟨i, hi, rfl⟩ | rfl
    · exact letter_lt i hi
    · omega
  exact ⟨data, h1, fun buf => by rw [((C163_decode_partial sgn t hlt buf).1 (wf_asserted h)).1, h3]⟩

/-- C163 is false for texts that are not well formed: not all of them fail an assertion. -/
theorem C163_refuted : ¬ Base64WF (S "====") ∧ base64DecodeD true (S "====") (S "..") = .ok (1, 255 :: S ".") ∧
    ¬ Base64WF (S "=aaa") ∧ base64DecodeD true (S "=aaa") (S "...") = .ok (3, [253, 166, 154]) := by
  refine ⟨fun h => (wf_four h).1 rfl, by decide +kernel, fun h => (wf_four h).1 rfl, by decide +kernel⟩

example : AssertedBase64 (S "YQ==") ∧ base64DecodeD true (S "YQ==") (S "..") = .ok (1, S "a.") ∧ base64DecodeD true (S "YQ=a") (S "..") = .abort ∧
    base64DecodeD true (S "YQ==YQ==") (S "..") = .abort ∧ base64DecodeD true (S "YQ-=") (S "..") = .abort ∧ base64DecodeD true (S "YQ=") (S "..") = .abort :=
  ⟨wf_asserted (.pad2 ⟨24, by decide⟩ ⟨16, by decide⟩), by decide +kernel, by decide +kernel, by decide +kernel, by decide +kernel, by decide +kernel⟩

end C4
