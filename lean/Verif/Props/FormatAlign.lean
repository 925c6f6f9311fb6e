import Verif.Props.Format
/-
Properties C54, C55, C85: alignment wrappers and raw binary data.
-/
namespace C4
open Spec

/-! ### C54 -/

/-- **C54 is false**: a buffer smaller than the width is overrun by the padding, on either side. -/
theorem C54_refuted :
    toCharsLeft (Arg.int .w32 7).toChars 10 32 (S ".....") = .ub ∧
    toCharsRight (Arg.int .w32 7).toChars 10 32 (S ".....") = .ub := by decide +kernel

theorem replicate_memset {b : List Nat} {pos c n : Nat} (h : pos + n ≤ b.length) :
    memset b pos c n = .ok (b.take pos ++ List.replicate n c ++ b.drop (pos + n)) := by
  unfold memset
  rw [memcpyTo_ok (by simpa using h)]; simp

/-- **C54**, the part that holds for `left`: if the width is at most the buffer, or the text at least as long as the width
or as the buffer, the result is the size needed, nothing is written outside the buffer, and if that size fits the buffer
starts with the text and the padding.  (Missing: buffers longer than the text and shorter than the width: `C54_refuted`.) -/
theorem C54_left_partial {f : Writer} {t : List Nat} (hf : Writes f t) (width pad : Nat) (buf : List Nat)
    (hw : width ≤ buf.length ∨ width ≤ t.length ∨ buf.length ≤ t.length) :
    ∃ b, toCharsLeft f width pad buf = .ok (max width t.length, b) ∧ b.length = buf.length ∧
      (max width t.length ≤ buf.length → b = overwrite (t ++ List.replicate (width - t.length) pad) buf) := by
  obtain ⟨b, e, hl, hfit⟩ := hf buf
  unfold toCharsLeft
  rw [e, Res.ok_bind]
  by_cases hc : t.length ≥ buf.length ∨ t.length ≥ width
  · simp only [if_pos hc]
    refine ⟨b, ?_, hl, fun hm => ?_⟩
    · congr 2; split <;> omega
    · have : width - t.length = 0 := by omega
      rw [this, hfit (by omega)]; simp
  · simp only [if_neg hc]
    have hle : t.length ≤ buf.length := by omega
    have hb := hfit hle
    rw [replicate_memset (by omega), Res.ok_bind]
    obtain ⟨b2, e2, hl2, hfit2⟩ := hf (b.take t.length ++ List.replicate (width - t.length) pad ++ b.drop (t.length + (width - t.length)))
    rw [e2, Res.ok_bind]
    refine ⟨b2, ?_, ?_, fun hm => ?_⟩
    · congr 2; omega
    · rw [hl2]; simp; omega
    · rw [hfit2 (by simp; omega), hb, overwrite_take]
      unfold overwrite
      simp only [List.append_assoc, List.drop_left, List.length_append, List.length_replicate]
      congr 2
      rw [← List.drop_drop, List.drop_left, List.drop_drop]

/-- **C54**, the part that holds for `right`: the same with the padding first; here it is enough that the padding fits. -/
theorem C54_right_partial {f : Writer} {t : List Nat} (hf : Writes f t) (width pad : Nat) (buf : List Nat)
    (hw : width - t.length ≤ buf.length ∨ buf.length ≤ t.length) :
    ∃ b, toCharsRight f width pad buf = .ok (max width t.length, b) ∧ b.length = buf.length ∧
      (max width t.length ≤ buf.length → b = overwrite (List.replicate (width - t.length) pad ++ t) buf) := by
  obtain ⟨b, e, hl, hfit⟩ := hf buf
  unfold toCharsRight
  rw [e, Res.ok_bind]
  by_cases hc : t.length ≥ buf.length ∨ t.length ≥ width
  · simp only [if_pos hc]
    refine ⟨b, ?_, hl, fun hm => ?_⟩
    · congr 2; split <;> omega
    · have : width - t.length = 0 := by omega
      rw [this, hfit (by omega)]; simp
  · simp only [if_neg hc]
    have hle : t.length ≤ buf.length := by omega
    have hb := hfit hle
    rw [replicate_memset (by omega), Res.ok_bind]
    unfold onSub
    rw [if_pos (by simp)]
    have hdrop : (b.take 0 ++ List.replicate (width - t.length) pad ++ b.drop (0 + (width - t.length))).drop (width - t.length)
        = b.drop (width - t.length) := by
      simp
    have htake : (b.take 0 ++ List.replicate (width - t.length) pad ++ b.drop (0 + (width - t.length))).take (width - t.length)
        = List.replicate (width - t.length) pad := by
      simp
    obtain ⟨b2, e2, hl2, hfit2⟩ := hf (b.drop (width - t.length))
    rw [hdrop, htake, e2, Res.ok_bind, Res.ok_bind]
    refine ⟨List.replicate (width - t.length) pad ++ b2, ?_, ?_, fun hm => ?_⟩
    · congr 2; omega
    · simp at hl2 ⊢; omega
    · rw [hfit2 (by simp; omega), hb]
      unfold overwrite
      simp only [List.append_assoc, List.length_append, List.length_replicate, List.drop_drop]
      congr 2
      rw [Nat.add_comm, ← List.drop_drop, List.drop_left, List.drop_drop]

example : toCharsLeft (Arg.int .w32 (-7)).toChars 5 32 (S ".......") = .ok (5, S "-7   ..") := by decide +kernel
example : toCharsRight (Arg.int .w32 (-7)).toChars 5 48 (S ".......") = .ok (5, S "000-7..") := by decide +kernel
example : toCharsRight (Arg.int .w32 (-7)).toChars 5 48 (S "....") = .ok (5, S "000.") := by decide +kernel

/-! ### C55 -/

/-- The distance from an address to the next multiple of the alignment. -/
def Spec.NextAligned (addr al d : Nat) : Prop := al ∣ addr + d ∧ ∀ d', al ∣ addr + d' → d ≤ d'

theorem alignDist (addr : Nat) {al : Nat} (h : 0 < al) : NextAligned addr al ((al - addr % al) % al) := by
  have hm := Nat.mod_lt addr h
  have hdm := Nat.div_add_mod addr al
  by_cases h0 : addr % al = 0
  · rw [h0, Nat.sub_zero, Nat.mod_self]
    exact ⟨Nat.dvd_of_mod_eq_zero h0, fun d' _ => Nat.zero_le _⟩
  · rw [Nat.mod_eq_of_lt (by omega)]
    refine ⟨⟨addr / al + 1, by rw [Nat.mul_add]; omega⟩, fun d' ⟨k, hk⟩ => ?_⟩
    have : addr / al < k := by
      refine Nat.lt_of_mul_lt_mul_left (a := al) ?_
      omega
    have := Nat.mul_le_mul_left al (show addr / al + 1 ≤ k from this)
    rw [Nat.mul_add] at this
    omega

theorem Spec.NextAligned.unique {addr al d d' : Nat} (h : NextAligned addr al d) (h' : NextAligned addr al d') : d = d' :=
  Nat.le_antisymm (h.2 _ h'.1) (h'.2 _ h.1)

theorem Spec.NextAligned.lt {addr al d : Nat} (h : NextAligned addr al d) (ha : 0 < al) : d < al := by
  rw [h.unique (alignDist addr ha)]
  exact Nat.mod_lt _ ha

/-- **C55** (writing): for every value, alignment, buffer address and size the bytes go to the next aligned position if they
fit there and the buffer is otherwise unchanged; the returned size is within the buffer exactly in that case, and is always
enough for the bytes and their alignment at that address. -/
theorem C55_write (addr al d : Nat) (ha : 0 < al) (hd : NextAligned addr al d) (data buf : List Nat) :
    ∃ n b, toCharsRaw addr al data buf = .ok (n, b) ∧ b.length = buf.length ∧
      d + data.length ≤ n ∧ (n ≤ buf.length ↔ d + data.length ≤ buf.length) ∧
      b = (if d + data.length ≤ buf.length then buf.take d ++ data ++ buf.drop (d + data.length) else buf) := by
  have hu := hd.unique (alignDist addr ha)
  have hlt := hd.lt ha
  unfold toCharsRaw stdAlign
  simp only [← hu]
  by_cases h : d + data.length ≤ buf.length
  · simp only [if_pos h]
    rw [if_pos (by omega), memcpyTo_ok h, Res.ok_bind]
    exact ⟨_, _, rfl, by simp; omega, Nat.le_refl _, by simp [h], rfl⟩
  · simp only [if_neg h]
    exact ⟨_, _, rfl, rfl, by omega, by omega, rfl⟩

/-- **C55** (reading): if the bytes fit at the next aligned position they are read from there, otherwise the error callback is
called; no access outside the buffer. -/
theorem C55_read (addr al d : Nat) (ha : 0 < al) (hd : NextAligned addr al d) (n : Nat) (buf : List Nat) :
    fromCharsRaw addr al n buf = if d + n ≤ buf.length then .ok ((buf.drop d).take n) else .abort := by
  have hu := hd.unique (alignDist addr ha)
  unfold fromCharsRaw stdAlign
  simp only [← hu]
  by_cases h : d + n ≤ buf.length
  · simp only [if_pos h]
    rw [if_pos (by omega)]
  · simp only [if_neg h]

/-- **C55** (round trip): what was written into a buffer is read back from it. -/
theorem C55_roundtrip (addr al : Nat) (ha : 0 < al) (data buf : List Nat) {n : Nat} {b : List Nat}
    (h : toCharsRaw addr al data buf = .ok (n, b)) (hn : n ≤ buf.length) :
    fromCharsRaw addr al data.length b = .ok data := by
  obtain ⟨n', b', e, h1, h2, h3, h4⟩ := C55_write addr al _ ha (alignDist addr ha) data buf
  rw [h] at e
  cases e
  have hfit := h3.mp hn
  rw [C55_read addr al _ ha (alignDist addr ha), h1, if_pos hfit, h4, if_pos hfit, List.append_assoc,
    List.drop_left' (by simp; omega), List.take_left' rfl]

example : toCharsRaw 1003 8 [1, 2, 3, 4] (List.replicate 12 0) = .ok (9, [0, 0, 0, 0, 0, 1, 2, 3, 4, 0, 0, 0]) := by
  decide +kernel
example : NextAligned 1003 8 5 := alignDist 1003 (by omega)
example : toCharsRaw 1003 8 [1, 2, 3, 4] (List.replicate 8 0) = .ok (12, List.replicate 8 0) := by decide +kernel

/-! ### C85 -/

/-- **C85 is false**: the size returned is always one. -/
theorem C85_refuted : fromCharsFirstRaw 1003 8 4 [0, 0, 0, 0, 0, 1, 2, 3, 4] = .ok (1, [1, 2, 3, 4]) := by decide +kernel

/-- **C85**, the part that holds: the value is read, or the error callback is called. -/
theorem C85_value_partial (addr al d : Nat) (ha : 0 < al) (hd : NextAligned addr al d) (n : Nat) (buf : List Nat) :
    if d + n ≤ buf.length then ∃ k, fromCharsFirstRaw addr al n buf = .ok (k, (buf.drop d).take n)
    else fromCharsFirstRaw addr al n buf = .abort := by
  unfold fromCharsFirstRaw
  rw [C55_read addr al d ha hd]
  split
  · exact ⟨1, rfl⟩
  · rfl

end C4
