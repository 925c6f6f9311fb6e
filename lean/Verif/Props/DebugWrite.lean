import Verif.Debug.Write
import Verif.Props.DebugSpans
import Verif.Charconv.WriteLemmas2
/-
The writers of integers in builds with assertions: which values, radices, numbers of digits and buffers are refused (C162).
-/
namespace C4
open Spec

/-! ### Numbers of digits -/

theorem digitsDecD_eq (w : W) {v : Int} (h : 0 ≤ v) : digitsDecD w v = .ok (digitsDec w v.toNat) := by
  unfold digitsDecD; rw [assertThat_pos h]; rfl
theorem digitsHexD_eq (w : W) {v : Int} (h : 0 ≤ v) : digitsHexD w v = .ok (digitsHex w v.toNat) := by
  unfold digitsHexD; rw [assertThat_pos h]; rfl
theorem digitsBinD_eq (w : W) {v : Int} (h : 0 ≤ v) : digitsBinD w v = .ok (digitsBin w v.toNat) := by
  unfold digitsBinD; rw [assertThat_pos h]; rfl
theorem digitsOctD_eq {v : Int} (h : 0 ≤ v) : digitsOctD v = digitsOct v.toNat := by
  unfold digitsOctD; rw [assertThat_pos h]; rfl

/-! ### The loops -/

theorem backD (b : Nat) (hb : 2 ≤ b) (loopD loop : Nat → List Nat → Nat → Nat → Res (List Nat))
    (hstep : ∀ f buf v d, ∃ g : (List Nat → Res (List Nat)) → Res (List Nat),
      loopD (f+1) buf v (d+1) = g (fun buf => if v / b ≠ 0 then loopD f buf (v / b) d else do assertThat (d = 0); .ok buf) ∧
      loop (f+1) buf v (d+1) = g (fun buf => if v / b ≠ 0 then loop f buf (v / b) d else .ok buf)) :
    ∀ v f buf, v < f → loopD f buf v (numeral b v).length = loop f buf v (numeral b v).length := by
  intro v
  induction v using Nat.strongRecOn with
  | ind v ih =>
    intro f buf hf
    have hpos := numeral_length_pos hb v
    obtain ⟨f, rfl⟩ : ∃ n, f = n + 1 := ⟨f - 1, by omega⟩
    obtain ⟨d, hd⟩ : ∃ n, (numeral b v).length = n + 1 := ⟨(numeral b v).length - 1, by omega⟩
    rw [hd]
    obtain ⟨g, e1, e2⟩ := hstep f buf v d
    rw [e1, e2]
    congr 1
    funext buf
    by_cases h : v / b = 0
    · rw [if_neg (by simp [h]), if_neg (by simp [h])]
      have hlt : v < b := by
        apply Nat.lt_of_not_le
        intro hge
        have : 1 ≤ v / b := Nat.div_pos hge (by omega)
        omega
      rw [numeral_lt hlt] at hd
      simp at hd
      rw [assertThat_pos hd]; rfl
    · rw [if_pos h, if_pos h]
      have hge : b ≤ v := by
        apply Nat.le_of_not_lt
        intro hlt
        exact h (Nat.div_eq_of_lt hlt)
      have hlt : v / b < v := Nat.div_lt_self (by omega) (by omega)
      have hL : (numeral b v).length = (numeral b (v/b)).length + 1 := by
        rw [numeral_ge hb hge]; simp
      have : d = (numeral b (v/b)).length := by omega
      rw [this]
      exact ih _ hlt f buf (by omega)

theorem writeHexLoopD_eq (v f : Nat) (buf : List Nat) (hf : v < f) :
    writeHexLoopD f buf v (numeral 16 v).length = writeHexUnchecked f buf v (numeral 16 v).length := by
  refine backD 16 (by omega) writeHexLoopD writeHexUnchecked (fun f buf v d => ?_) v f buf hf
  have h2 : v >>> 4 = v / 16 := by rw [Nat.shiftRight_eq_div_pow]
  refine ⟨fun k => do let c ← rd hexchars (v &&& 15); let b ← wr buf d c; k b, ?_, ?_⟩
  · rw [writeHexLoopD, dec32_succ, h2]
  · rw [writeHexUnchecked, dec32_succ, h2]

theorem writeOctLoopD_eq (v f : Nat) (buf : List Nat) (hf : v < f) :
    writeOctLoopD f buf v (numeral 8 v).length = writeOctUnchecked f buf v (numeral 8 v).length := by
  refine backD 8 (by omega) writeOctLoopD writeOctUnchecked (fun f buf v d => ?_) v f buf hf
  have h2 : v >>> 3 = v / 8 := by rw [Nat.shiftRight_eq_div_pow]
  refine ⟨fun k => do let b ← wr buf d (48 + (v &&& 7)); k b, ?_, ?_⟩
  · rw [writeOctLoopD, dec32_succ, h2]
  · rw [writeOctUnchecked, dec32_succ, h2]

theorem writeBinLoopD_eq (v f : Nat) (buf : List Nat) (hf : v < f) :
    writeBinLoopD f buf v (numeral 2 v).length = writeBinUnchecked f buf v (numeral 2 v).length := by
  refine backD 2 (by omega) writeBinLoopD writeBinUnchecked (fun f buf v d => ?_) v f buf hf
  have h2 : v >>> 1 = v / 2 := by rw [Nat.shiftRight_eq_div_pow]
  refine ⟨fun k => do let b ← wr buf d (48 + (v &&& 1)); k b, ?_, ?_⟩
  · rw [writeBinLoopD, dec32_succ, h2]
  · rw [writeBinUnchecked, dec32_succ, h2]

theorem writeDecLoopD_eq : ∀ (v f : Nat) (buf : List Nat), v < f →
    writeDecLoopD f buf v (numeral 10 v).length = writeDecUnchecked f buf v (numeral 10 v).length := by
  intro v
  induction v using Nat.strongRecOn with
  | ind v ih =>
    intro f buf hf
    obtain ⟨f, rfl⟩ : ∃ n, f = n + 1 := ⟨f - 1, by omega⟩
    rw [writeDecLoopD, writeDecUnchecked]
    split
    · rename_i h
      have hn : numeral 10 v = numeral 10 (v / 100) ++ [v / 10 % 10, v % 10] := by
        rw [numeral_ge (by omega) (show 10 ≤ v by omega), numeral_ge (v := v / 10) (by omega) (by omega)]
        simp [Nat.div_div_eq_div_mul]
      have hL : (numeral 10 v).length = (numeral 10 (v/100)).length + 1 + 1 := by rw [hn]; simp
      rw [hL]
      simp only [dec32_succ, ih (v / 100) (by omega) f _ (by omega)]
    · split
      · rename_i h1 h2
        have hn : numeral 10 v = [v / 10, v % 10] := by
          rw [numeral_ge (by omega) (show 10 ≤ v by omega), numeral_lt (by omega)]; rfl
        have h2 : (numeral 10 v).length = 2 := by rw [hn]; rfl
        rw [assertThat_pos h2, Res.ok_bind]
      · have h1 : (numeral 10 v).length = 1 := by rw [numeral_lt (by omega)]; rfl
        rw [assertThat_pos h1, Res.ok_bind]

/-! ### The writers of digits -/

theorem assertThat_not {c : Prop} [Decidable c] (h : ¬ c) : assertThat c = .abort := by
  unfold assertThat; rw [if_neg h]

theorem writeDecUncheckedD_eq {w : W} {v n : Nat} {buf : List Nat} (hv : v < 2 ^ w.bits) (hn : n = (numeral 10 v).length) (hb : n ≤ buf.length) :
    writeDecUncheckedD w v n buf = writeDecUnchecked (v + 1) buf v n := by
  unfold writeDecUncheckedD
  rw [assertThat_pos (by simp), Res.ok_bind, assertThat_pos hb, Res.ok_bind, digitsDecD_eq w (by simp), Res.ok_bind]
  simp only [Int.toNat_natCast]
  rw [assertThat_pos (by rw [digitsDec_eq w v hv]; exact hn), Res.ok_bind, hn, writeDecLoopD_eq v _ _ (by omega)]
theorem writeHexUncheckedD_eq {w : W} {v n : Nat} {buf : List Nat} (hv : v < 2 ^ w.bits) (hn : n = (numeral 16 v).length) (hb : n ≤ buf.length) :
    writeHexUncheckedD w v n buf = writeHexUnchecked (v + 1) buf v n := by
  unfold writeHexUncheckedD
  rw [assertThat_pos (by simp), Res.ok_bind, assertThat_pos hb, Res.ok_bind, digitsHexD_eq w (by simp), Res.ok_bind]
  simp only [Int.toNat_natCast]
  rw [assertThat_pos (by rw [digitsHex_eq w v hv]; exact hn), Res.ok_bind, hn, writeHexLoopD_eq v _ _ (by omega)]
theorem writeBinUncheckedD_eq {w : W} {v n : Nat} {buf : List Nat} (hv : v < 2 ^ w.bits) (hn : n = (numeral 2 v).length) (hb : n ≤ buf.length) :
    writeBinUncheckedD w v n buf = writeBinUnchecked (v + 1) buf v n := by
  unfold writeBinUncheckedD
  rw [assertThat_pos (by simp), Res.ok_bind, assertThat_pos hb, Res.ok_bind, digitsBinD_eq w (by simp), Res.ok_bind]
  simp only [Int.toNat_natCast]
  rw [assertThat_pos (by rw [digitsBin_eq w v hv]; exact hn), Res.ok_bind, hn, writeBinLoopD_eq v _ _ (by omega)]
theorem writeOctUncheckedD_eq {v n : Nat} {buf : List Nat} (hn : n = (numeral 8 v).length) (hb : n ≤ buf.length) :
    writeOctUncheckedD v n buf = writeOctUnchecked (v + 1) buf v n := by
  unfold writeOctUncheckedD
  rw [assertThat_pos (by simp), Res.ok_bind, assertThat_pos hb, Res.ok_bind, digitsOctD_eq (by simp)]
  simp only [Int.toNat_natCast, digitsOct_eq, Res.ok_bind]
  rw [assertThat_pos hn, Res.ok_bind, hn, writeOctLoopD_eq v _ _ (by omega)]

theorem writeDecD_eq (w : W) {v : Nat} (hv : v < 2 ^ w.bits) (buf : List Nat) : writeDecD w v buf = writeDec w v buf := by
  unfold writeDecD writeDec
  rw [assertThat_pos (by simp), Res.ok_bind, digitsDecD_eq w (by simp), Res.ok_bind]
  simp only [Int.toNat_natCast]
  split
  · rename_i h; rw [writeDecUncheckedD_eq hv (digitsDec_eq w v hv) h]
  · rfl
theorem writeHexD_eq (w : W) {v : Nat} (hv : v < 2 ^ w.bits) (buf : List Nat) : writeHexD w v buf = writeHex w v buf := by
  unfold writeHexD writeHex
  rw [assertThat_pos (by simp), Res.ok_bind, digitsHexD_eq w (by simp), Res.ok_bind]
  simp only [Int.toNat_natCast]
  split
  · rename_i h; rw [writeHexUncheckedD_eq hv (digitsHex_eq w v hv) h]
  · rfl
theorem writeOctD_eq (w : W) {v : Nat} (buf : List Nat) : writeOctD w v buf = writeOct w v buf := by
  unfold writeOctD writeOct
  rw [assertThat_pos (by simp), Res.ok_bind, digitsOctD_eq (by simp)]
  simp only [Int.toNat_natCast, digitsOct_eq, Res.ok_bind]
  split
  · rename_i h; rw [writeOctUncheckedD_eq rfl h]
  · rfl
theorem writeBinD_eq (w : W) {v : Nat} (hv : v < 2 ^ w.bits) (buf : List Nat) : writeBinD w v buf = writeBin w v buf := by
  unfold writeBinD writeBin
  rw [assertThat_pos (by simp), Res.ok_bind, digitsBinD_eq w (by simp), Res.ok_bind]
  simp only [Int.toNat_natCast]
  rw [assertThat_pos (by rw [digitsBin_eq w v hv]; exact numeral_length_pos (by omega) v), Res.ok_bind]
  split
  · rename_i h; rw [writeBinUncheckedD_eq hv (digitsBin_eq w v hv) h]
  · rfl

theorem writeNumDigitsD_eq {wD w : List Nat → Res (Nat × List Nat)} {nd : Nat} {buf : List Nat} (h : wD buf = w buf) :
    writeNumDigitsD wD nd buf = writeNumDigits w nd buf := by
  unfold writeNumDigitsD writeNumDigits
  rw [h]
  cases w buf with
  | ok r =>
    simp only [Res.ok_bind]
    split
    · rfl
    · split
      · rfl
      · rw [assertThat_pos (by omega)]; rfl
  | _ => rfl

/-! ### The writers of numbers with a sign or prefix -/

theorem onSubD_congr {buf : List Nat} {pos : Nat} {f g : List Nat → Res (β × List Nat)} (hp : pos ≤ buf.length) (h : f (buf.drop pos) = g (buf.drop pos)) :
    onSubD buf pos f = onSub buf pos g := by
  unfold onSubD onSub
  rw [assertThat_pos hp, Res.ok_bind, if_pos hp, if_pos hp, h]

theorem wr_length {α} {buf b : List α} {i : Nat} {c : α} (h : wr buf i c = .ok b) : b.length = buf.length := by
  unfold wr at h
  split at h
  · cases h; simp
  · cases h

theorem wr_bind_congr {buf : List Nat} {i c : Nat} {f g : List Nat → Res α} (h : ∀ b, b.length = buf.length → f b = g b) :
    (do let b ← wr buf i c; f b) = (do let b ← wr buf i c; g b) := by
  cases hw : wr buf i c with
  | ok b => exact h b (wr_length hw)
  | _ => rfl

theorem pfxUncheckedD_eq {buf : List Nat} {pos c digits : Nat} {f g : List Nat → Res (List Nat)} (h : ∀ b : List Nat, digits ≤ b.length → f b = g b) :
    pfxUncheckedD buf pos c digits f = pfxUnchecked buf pos c digits g := by
  unfold pfxUncheckedD pfxUnchecked
  split
  · rename_i hb
    refine wr_bind_congr fun b h1 => wr_bind_congr fun b h2 => ?_
    rw [onSubD_congr (g := fun b => do let b ← g b; .ok ((), b)) (by omega)]
    show (do let b ← f _; Res.ok ((), b)) = _
    rw [h _ (by simp; omega)]
  · rfl

theorem radixSwitchD_eq {w : W} {v r pos : Nat} {buf : List Nat} (hv : v < 2 ^ w.bits) : radixSwitchD w v r pos buf = radixSwitch w v r pos buf := by
  unfold radixSwitchD radixSwitch
  split
  · rw [digitsDecD_eq w (by simp), Res.ok_bind]
    simp only [Int.toNat_natCast]
    split
    · rename_i hb
      rw [onSubD_congr (g := fun b => do let b ← writeDecUnchecked (v + 1) b v (digitsDec w v); .ok ((), b)) (by omega)]
      show (do let b ← writeDecUncheckedD w v _ _; Res.ok ((), b)) = _
      rw [writeDecUncheckedD_eq hv (digitsDec_eq w v hv) (by simp; omega)]
    · rfl
  · rw [digitsHexD_eq w (by simp), Res.ok_bind]
    exact pfxUncheckedD_eq fun b hb => writeHexUncheckedD_eq hv (digitsHex_eq w v hv) hb
  · rw [digitsBinD_eq w (by simp), Res.ok_bind]
    exact pfxUncheckedD_eq fun b hb => writeBinUncheckedD_eq hv (digitsBin_eq w v hv) hb
  · rw [digitsOctD_eq (by simp)]
    simp only [Int.toNat_natCast, digitsOct_eq, Res.ok_bind]
    exact pfxUncheckedD_eq fun b hb => writeOctUncheckedD_eq rfl hb
  · split <;> first | rfl | simp_all

theorem pfxPaddedD_eq {buf : List Nat} {pos c digits nd : Nat} {f g : List Nat → Res (Nat × List Nat)} (hp : pos ≤ 1) (hd : digits ≤ 64)
    (hn : nd < 2 ^ 32 - 3) (h : ∀ b : List Nat, f b = g b) : pfxPaddedD buf pos c digits nd f = pfxPadded buf pos c digits nd g := by
  unfold pfxPaddedD pfxPadded
  have : u32 (pos + 2 + u32 (if nd > digits then nd else digits)) ≥ pos + 2 := by
    unfold u32; split <;> omega
  generalize u32 (pos + 2 + u32 (if nd > digits then nd else digits)) = total at this
  simp only
  split
  · rename_i hb
    refine wr_bind_congr fun b h1 => wr_bind_congr fun b h2 => ?_
    rw [onSubD_congr (by omega) (h _)]
  · rfl

theorem radixSwitchPadD_eq {w : W} {v r pos nd : Nat} {buf : List Nat} (hv : v < 2 ^ w.bits) (hp : pos ≤ 1) (hn : nd < 2 ^ 32 - 3) :
    radixSwitchPadD w v r nd pos buf = radixSwitchPad w v r nd pos buf := by
  have hL : ∀ b, 2 ≤ b → (numeral b v).length ≤ 64 := fun b hb => numeral_len_le64 hb (W.lt64 hv)
  unfold radixSwitchPadD radixSwitchPad
  split
  · rw [digitsDecD_eq w (by simp), Res.ok_bind]
    simp only [Int.toNat_natCast, digitsDec_eq w v hv]
    have : u32 (pos + u32 (if nd > (numeral 10 v).length then nd else (numeral 10 v).length)) ≥ pos := by
      have := hL 10 (by omega)
      unfold u32; split <;> omega
    generalize u32 (pos + u32 (if nd > (numeral 10 v).length then nd else (numeral 10 v).length)) = total at this
    split
    · rw [onSubD_congr (f := writeDecPadD w v nd) (g := writeDecPad w v nd) (by omega) (writeNumDigitsD_eq (writeDecD_eq w hv _))]
    · rfl
  · rw [digitsHexD_eq w (by simp), Res.ok_bind]
    exact pfxPaddedD_eq hp (by rw [Int.toNat_natCast, digitsHex_eq w v hv]; exact hL 16 (by omega)) hn fun b => writeNumDigitsD_eq (writeHexD_eq w hv b)
  · rw [digitsBinD_eq w (by simp), Res.ok_bind]
    exact pfxPaddedD_eq hp (by rw [Int.toNat_natCast, digitsBin_eq w v hv]; exact hL 2 (by omega)) hn fun b => writeNumDigitsD_eq (writeBinD_eq w hv b)
  · rw [digitsOctD_eq (by simp)]
    simp only [Int.toNat_natCast, digitsOct_eq, Res.ok_bind]
    exact pfxPaddedD_eq hp (hL 8 (by omega)) hn fun b => writeNumDigitsD_eq (writeOctD_eq w b)
  · split <;> first | rfl | simp_all

/-! ### The least value of a type -/

theorem itoa2bufD_eq {buf val : List Nat} {pos : Nat} (h : pos + val.length ≤ buf.length) : itoa2bufD buf pos val = itoa2buf buf pos val := by
  unfold itoa2bufD itoa2buf
  rw [assertThat_pos (c := addSz pos val.length ≤ buf.length) (Nat.le_trans (Nat.mod_le _ _) h)]; rfl

theorem itoadec2bufD_eq (w : W) (buf : List Nat) : itoadec2bufD w buf = itoadec2buf w buf := by
  unfold itoadec2bufD itoadec2buf
  have := maxdigitsDec_eq w
  split
  · rfl
  · exact wr_bind_congr fun b hb => itoa2bufD_eq (by omega)

theorem itoa2bufPfxD_eq {buf val : List Nat} {pos c n : Nat} (hp : pos ≤ 1) (hn : n = 3 + val.length) : itoa2bufPfxD buf pos c n val = itoa2bufPfx buf pos c n val := by
  unfold itoa2bufPfxD itoa2bufPfx
  split
  · rfl
  · exact wr_bind_congr fun b h1 => wr_bind_congr fun b h2 => itoa2bufD_eq (by omega)

theorem itoa2bufRadixD_eq (w : W) (r : Nat) (buf : List Nat) : itoa2bufRadixD w r buf = itoa2bufRadix w r buf := by
  unfold itoa2bufRadixD itoa2bufRadix
  have := maxdigitsDec_eq w
  by_cases hb : buf.length > 0
  · simp only [hb, if_true, wr_ok hb, Res.ok_bind]
    split
    · split
      · rfl
      · exact itoa2bufD_eq (by omega)
    · exact itoa2bufPfxD_eq (by omega) (maxdigitsHex_eq w)
    · exact itoa2bufPfxD_eq (by omega) (maxdigitsBin_eq w)
    · exact itoa2bufPfxD_eq (by omega) (maxdigitsOct_eq w)
    · split <;> first | rfl | simp_all
  · simp only [hb, if_false, Res.ok_bind]
    split
    · split
      · rfl
      · exact itoa2bufD_eq (by omega)
    · exact itoa2bufPfxD_eq (by omega) (maxdigitsHex_eq w)
    · exact itoa2bufPfxD_eq (by omega) (maxdigitsBin_eq w)
    · exact itoa2bufPfxD_eq (by omega) (maxdigitsOct_eq w)
    · split <;> first | rfl | simp_all

theorem appendZeros_len : ∀ (n : Nat) (buf : List Nat) (pos : Nat) r, appendZeros n buf pos = .ok r → r.1 = pos + n ∧ r.2.length = buf.length
  | 0, buf, pos, r, h => by simp only [appendZeros] at h; cases h; simp
  | n+1, buf, pos, r, h => by
    simp only [appendZeros] at h
    cases hc : c4append buf pos 48 with
    | ok x =>
      rw [hc] at h
      have hx : x.1 = pos + 1 ∧ x.2.length = buf.length := by
        unfold c4append at hc
        split at hc
        · cases hw : wr buf pos 48 with
          | ok b => rw [hw] at hc; cases hc; exact ⟨rfl, wr_length hw⟩
          | _ => rw [hw] at hc; cases hc
        · cases hc; simp
      have := appendZeros_len n x.2 x.1 r h
      omega
    | _ => rw [hc] at h; cases h

theorem itoa2bufWithDigitsD_eq {buf val : List Nat} {pos nd : Nat} (h : pos + max nd val.length ≤ buf.length) :
    itoa2bufWithDigitsD buf pos nd val = itoa2bufWithDigits buf pos nd val := by
  unfold itoa2bufWithDigitsD itoa2bufWithDigits
  have : (if nd > val.length then nd - val.length else 0) = max nd val.length - val.length := by split <;> omega
  rw [this]
  simp only
  rw [assertThat_pos (c := addSz (max nd val.length - val.length) val.length ≤ buf.length) (Nat.le_trans (Nat.mod_le _ _) (by omega)), Res.ok_bind]
  cases ha : appendZeros (max nd val.length - val.length) buf pos with
  | ok r =>
    have := appendZeros_len _ _ _ _ ha
    exact itoa2bufD_eq (by omega)
  | _ => rfl

theorem itoa2bufPfxDigitsD_eq {buf val : List Nat} {pos c n least nd : Nat} (hp : pos ≤ 1) (hn : n = 3 + val.length) (hl : least ≤ n) (hnd : nd < 2 ^ 64 - 3) :
    itoa2bufPfxDigitsD buf pos c n least nd val = itoa2bufPfxDigits buf pos c n nd val := by
  unfold itoa2bufPfxDigitsD itoa2bufPfxDigits
  have a3 : addSz nd 3 = nd + 3 := by unfold addSz; omega
  rw [a3]
  have : (if nd + 3 > n then nd + 3 else n) = 3 + max nd val.length := by split <;> omega
  simp only [this]
  split
  · rfl
  · rw [assertThat_pos (by omega), Res.ok_bind]
    exact wr_bind_congr fun b h1 => wr_bind_congr fun b h2 => itoa2bufWithDigitsD_eq (by omega)

theorem itoa2bufRadixDigitsD_eq (w : W) (r nd : Nat) (buf : List Nat) (hnd : nd < 2 ^ 64 - 3) :
    itoa2bufRadixDigitsD w r nd buf = itoa2bufRadixDigits w r nd buf := by
  unfold itoa2bufRadixDigitsD itoa2bufRadixDigits
  by_cases hb : buf.length > 0
  · simp only [hb, if_true, wr_ok hb, Res.ok_bind]
    split
    · have a1 : addSz nd 1 = nd + 1 := by unfold addSz; omega
      have h1 := maxdigitsDec_eq w
      have : (if nd + 1 > maxdigitsDec w then nd + 1 else maxdigitsDec w) = 1 + max nd (minValueDec w).length := by split <;> omega
      simp only [a1, this]
      split
      · rfl
      · exact itoa2bufWithDigitsD_eq (by omega)
    · exact itoa2bufPfxDigitsD_eq (by omega) (maxdigitsHex_eq w) (by omega) hnd
    · exact itoa2bufPfxDigitsD_eq (by omega) (maxdigitsBin_eq w) (by omega) hnd
    · exact itoa2bufPfxDigitsD_eq (by omega) (maxdigitsOct_eq w) (by omega) hnd
    · split <;> first | rfl | simp_all
  · simp only [hb, if_false, Res.ok_bind]
    split
    · have a1 : addSz nd 1 = nd + 1 := by unfold addSz; omega
      have h1 := maxdigitsDec_eq w
      have : (if nd + 1 > maxdigitsDec w then nd + 1 else maxdigitsDec w) = 1 + max nd (minValueDec w).length := by split <;> omega
      simp only [a1, this]
      split
      · rfl
      · exact itoa2bufWithDigitsD_eq (by omega)
    · exact itoa2bufPfxDigitsD_eq (by omega) (maxdigitsHex_eq w) (by omega) hnd
    · exact itoa2bufPfxDigitsD_eq (by omega) (maxdigitsBin_eq w) (by omega) hnd
    · exact itoa2bufPfxDigitsD_eq (by omega) (maxdigitsOct_eq w) (by omega) hnd
    · split <;> first | rfl | simp_all

/-! ### C162 -/

theorem itoaSign_spec (v : Int) (buf : List Nat) : ∃ pos b, itoaSign v buf = .ok (v.natAbs, pos, b) ∧ pos ≤ 1 := by
  unfold itoaSign
  split
  · rename_i h
    have : (-v).toNat = v.natAbs := by omega
    rw [this]
    split
    · rename_i hb
      rw [wr_ok hb]; exact ⟨1, _, rfl, by omega⟩
    · exact ⟨1, _, rfl, by omega⟩
  · rename_i h
    have : v.toNat = v.natAbs := by omega
    rw [this]; exact ⟨0, _, rfl, by omega⟩

/-- The numbers of a signed type of width `w`. -/
def Spec.InSigned (w : W) (v : Int) : Prop := -(2 ^ (w.bits - 1)) ≤ v ∧ v < 2 ^ (w.bits - 1)

/-- **C162**, the writers of digits: no value from 0 on fails an assertion, whatever the buffer and the number of digits asked for; the result is that of
a build without assertions. -/
theorem C162_write (w : W) (v : Nat) (hv : v < 2 ^ w.bits) (nd : Nat) (buf : List Nat) :
    writeDecD w v buf = writeDec w v buf ∧ writeHexD w v buf = writeHex w v buf ∧ writeOctD w v buf = writeOct w v buf ∧ writeBinD w v buf = writeBin w v buf ∧
    writeDecPadD w v nd buf = writeDecPad w v nd buf ∧ writeHexPadD w v nd buf = writeHexPad w v nd buf ∧
    writeOctPadD w v nd buf = writeOctPad w v nd buf ∧ writeBinPadD w v nd buf = writeBinPad w v nd buf :=
  ⟨writeDecD_eq w hv buf, writeHexD_eq w hv buf, writeOctD_eq w buf, writeBinD_eq w hv buf, writeNumDigitsD_eq (writeDecD_eq w hv buf),
    writeNumDigitsD_eq (writeHexD_eq w hv buf), writeNumDigitsD_eq (writeOctD_eq w buf), writeNumDigitsD_eq (writeBinD_eq w hv buf)⟩

/-- **C162**, the writers of digits: negative values fail an assertion. -/
theorem C162_write_negative (w : W) (v : Int) (hv : v < 0) (nd : Nat) (buf : List Nat) :
    writeDecD w v buf = .abort ∧ writeHexD w v buf = .abort ∧ writeOctD w v buf = .abort ∧ writeBinD w v buf = .abort ∧
    writeDecPadD w v nd buf = .abort ∧ writeHexPadD w v nd buf = .abort ∧ writeOctPadD w v nd buf = .abort ∧ writeBinPadD w v nd buf = .abort := by
  have h : assertThat (v ≥ 0) = .abort := assertThat_not (by omega)
  have h1 : writeDecD w v buf = .abort := by unfold writeDecD; rw [h]; rfl
  have h2 : writeHexD w v buf = .abort := by unfold writeHexD; rw [h]; rfl
  have h3 : writeOctD w v buf = .abort := by unfold writeOctD; rw [h]; rfl
  have h4 : writeBinD w v buf = .abort := by unfold writeBinD; rw [h]; rfl
  refine ⟨h1, h2, h3, h4, ?_, ?_, ?_, ?_⟩
  · unfold writeDecPadD writeNumDigitsD; rw [h1]; rfl
  · unfold writeHexPadD writeNumDigitsD; rw [h2]; rfl
  · unfold writeOctPadD writeNumDigitsD; rw [h3]; rfl
  · unfold writeBinPadD writeNumDigitsD; rw [h4]; rfl

/-- **C162**, the writers that are given the number of digits: accepted exactly if that is the number of digits of a value from 0 on, and the buffer has that many
characters; then the digits are written. -/
theorem C162_unchecked (w : W) (v : Int) (hv : v < 2 ^ w.bits) (n : Nat) (buf : List Nat) :
    (0 ≤ v → n = (numeral 10 v.toNat).length → n ≤ buf.length → writeDecUncheckedD w v n buf = .ok (overwrite (numeralText 10 v.toNat) buf)) ∧
    (0 ≤ v → n = (numeral 16 v.toNat).length → n ≤ buf.length → writeHexUncheckedD w v n buf = .ok (overwrite (numeralText 16 v.toNat) buf)) ∧
    (0 ≤ v → n = (numeral 8 v.toNat).length → n ≤ buf.length → writeOctUncheckedD v n buf = .ok (overwrite (numeralText 8 v.toNat) buf)) ∧
    (0 ≤ v → n = (numeral 2 v.toNat).length → n ≤ buf.length → writeBinUncheckedD w v n buf = .ok (overwrite (numeralText 2 v.toNat) buf)) ∧
    (¬ (0 ≤ v ∧ n = (numeral 10 v.toNat).length ∧ n ≤ buf.length) → writeDecUncheckedD w v n buf = .abort) ∧
    (¬ (0 ≤ v ∧ n = (numeral 16 v.toNat).length ∧ n ≤ buf.length) → writeHexUncheckedD w v n buf = .abort) ∧
    (¬ (0 ≤ v ∧ n = (numeral 8 v.toNat).length ∧ n ≤ buf.length) → writeOctUncheckedD v n buf = .abort) ∧
    (¬ (0 ≤ v ∧ n = (numeral 2 v.toNat).length ∧ n ≤ buf.length) → writeBinUncheckedD w v n buf = .abort) := by
  have key : ∀ (b m : Nat) (dig : Res Nat) (k : Res (List Nat)), (0 ≤ v → dig = .ok m) → m = (numeral b v.toNat).length →
      ¬ (0 ≤ v ∧ n = (numeral b v.toNat).length ∧ n ≤ buf.length) →
      (do assertThat (v ≥ 0); assertThat (buf.length ≥ n); let m ← dig; assertThat (n = m); k) = .abort := by
    intro b m dig k hd hm h
    by_cases h0 : 0 ≤ v
    · rw [assertThat_pos h0, Res.ok_bind, hd h0]
      by_cases h1 : n ≤ buf.length
      · rw [assertThat_pos h1, Res.ok_bind, Res.ok_bind, assertThat_not (by intro e; exact h ⟨h0, by rw [e, hm], h1⟩)]; rfl
      · rw [assertThat_not h1]; rfl
    · rw [assertThat_not h0]; rfl
  have hlt : v.toNat < 2 ^ w.bits := by
    have : (2 : Int) ^ w.bits = ((2 ^ w.bits : Nat) : Int) := by push_cast; rfl
    have h2 : 0 < 2 ^ w.bits := Nat.two_pow_pos _
    omega
  have cast : 0 ≤ v → ((v.toNat : Nat) : Int) = v := fun h => Int.toNat_of_nonneg h
  refine ⟨?_, ?_, ?_, ?_, ?_, ?_, ?_, ?_⟩
  · intro h0 h1 h2
    obtain ⟨u, rfl⟩ : ∃ u : Nat, v = u := ⟨v.toNat, (cast h0).symm⟩
    simp only [Int.toNat_natCast] at h1 hlt ⊢
    rw [writeDecUncheckedD_eq hlt h1 h2]
    subst h1
    rw [writeDecUnchecked_eq _ _ _ (by omega) h2]; simp [overwrite]
  · intro h0 h1 h2
    obtain ⟨u, rfl⟩ : ∃ u : Nat, v = u := ⟨v.toNat, (cast h0).symm⟩
    simp only [Int.toNat_natCast] at h1 hlt ⊢
    rw [writeHexUncheckedD_eq hlt h1 h2]
    subst h1
    rw [writeHexUnchecked_eq _ _ _ _ (by omega) (by omega) h2]; simp [overwrite]
  · intro h0 h1 h2
    obtain ⟨u, rfl⟩ : ∃ u : Nat, v = u := ⟨v.toNat, (cast h0).symm⟩
    simp only [Int.toNat_natCast] at h1 hlt ⊢
    rw [writeOctUncheckedD_eq h1 h2]
    subst h1
    rw [writeOctUnchecked_eq _ _ _ _ (by omega) (by omega) h2]; simp [overwrite]
  · intro h0 h1 h2
    obtain ⟨u, rfl⟩ : ∃ u : Nat, v = u := ⟨v.toNat, (cast h0).symm⟩
    simp only [Int.toNat_natCast] at h1 hlt ⊢
    rw [writeBinUncheckedD_eq hlt h1 h2]
    subst h1
    rw [writeBinUnchecked_eq _ _ _ _ (by omega) (by omega) h2]; simp [overwrite]
  · exact key 10 _ _ _ (fun h => digitsDecD_eq w h) (digitsDec_eq w _ hlt)
  · exact key 16 _ _ _ (fun h => digitsHexD_eq w h) (digitsHex_eq w _ hlt)
  · exact key 8 _ _ _ (fun h => by rw [digitsOctD_eq h, digitsOct_eq]) rfl
  · exact key 2 _ _ _ (fun h => digitsBinD_eq w h) (digitsBin_eq w _ hlt)

theorem inSigned {w : W} {v : Int} (h : InSigned w v) : w.minI ≤ v ∧ v < 2 ^ (w.bits - 1) := by
  refine ⟨?_, h.2⟩
  have := h.1
  unfold W.minI
  push_cast
  exact this

/-- **C162**, `itoa` and `utoa`: no value and no buffer fails an assertion. -/
theorem C162_itoa (w : W) (v : Int) (hv : InSigned w v) (u : Nat) (hu : u < 2 ^ w.bits) (buf : List Nat) :
    (∃ r, itoaD w v buf = .ok r ∧ itoa w v buf = .ok r) ∧ ∃ r, utoaD w u buf = .ok r ∧ utoa w u buf = .ok r := by
  obtain ⟨h1, h2⟩ := inSigned hv
  have e1 : itoaD w v buf = itoa w v buf := by
    unfold itoaD itoa
    by_cases h0 : v ≥ 0
    · rw [if_pos h0, if_pos h0]
      have := signed_lt h1 (by have := W.minI_neg w; omega) h2
      conv => lhs; rw [← Int.toNat_of_nonneg h0]
      exact writeDecD_eq w (by omega) buf
    · rw [if_neg h0, if_neg h0]
      by_cases hm : v ≠ w.minI
      · rw [if_pos hm, if_pos hm]
        have hlt := signed_lt h1 hm h2
        have hn : -v = (((-v).toNat : Nat) : Int) := (Int.toNat_of_nonneg (by omega)).symm
        simp only
        rw [digitsDecD_eq w (by omega), Res.ok_bind]
        split
        · rename_i hb
          refine wr_bind_congr fun b hl => ?_
          rw [onSubD_congr (g := fun b => do let b ← writeDecUnchecked ((-v).toNat + 1) b (-v).toNat (digitsDec w (-v).toNat); .ok ((), b)) (by omega)]
          show (do let b ← writeDecUncheckedD w (-v) _ _; Res.ok ((), b)) = _
          conv => lhs; rw [hn]
          simp only [Int.toNat_natCast]
          rw [writeDecUncheckedD_eq (by omega) (digitsDec_eq w _ (by omega)) (by simp; omega)]
        · rfl
      · rw [if_neg hm, if_neg hm]
        exact itoadec2bufD_eq w buf
  exact ⟨⟨_, by rw [e1]; exact itoa_eq w v h1 h2 buf, itoa_eq w v h1 h2 buf⟩,
    ⟨_, by unfold utoaD; rw [writeDecD_eq w hu]; exact writeDec_exact w u hu buf, writeDec_exact w u hu buf⟩⟩

/-- **C162**, `itoa` and `utoa` with a radix: an assertion fails exactly if the radix is not 2, 8, 10 or 16. -/
theorem C162_radix (w : W) (v : Int) (hv : InSigned w v) (u : Nat) (hu : u < 2 ^ w.bits) (r : Nat) (buf : List Nat) :
    (isRadix r → (∃ x, itoaRadixD w v r buf = .ok x ∧ itoaRadix w v r buf = .ok x) ∧ ∃ x, utoaRadixD w u r buf = .ok x ∧ utoaRadix w u r buf = .ok x) ∧
    (¬ isRadix r → itoaRadixD w v r buf = .abort ∧ utoaRadixD w u r buf = .abort) := by
  obtain ⟨h1, h2⟩ := inSigned hv
  constructor
  · intro hr
    have e1 : itoaRadixD w v r buf = itoaRadix w v r buf := by
      unfold itoaRadixD itoaRadix
      rw [assertThat_pos (c := r = 2 ∨ r = 8 ∨ r = 10 ∨ r = 16) hr, Res.ok_bind]
      split
      · rename_i hm
        obtain ⟨pos, b, e, _⟩ := itoaSign_spec v buf
        rw [e]
        exact radixSwitchD_eq (signed_lt h1 hm h2)
      · exact itoa2bufRadixD_eq w r buf
    have e2 : utoaRadixD w u r buf = utoaRadix w u r buf := by
      unfold utoaRadixD utoaRadix
      rw [assertThat_pos (by unfold isRadix at hr; omega), Res.ok_bind]
      exact radixSwitchD_eq hu
    exact ⟨⟨_, by rw [e1]; exact itoaRadix_eq w v r hr h1 h2 buf, itoaRadix_eq w v r hr h1 h2 buf⟩,
      ⟨_, by rw [e2]; exact radixSwitch_eq w u r 0 buf hu hr (by omega), radixSwitch_eq w u r 0 buf hu hr (by omega)⟩⟩
  · intro hr
    constructor
    · unfold itoaRadixD; rw [assertThat_not (c := r = 2 ∨ r = 8 ∨ r = 10 ∨ r = 16) hr]; rfl
    · unfold utoaRadixD; rw [assertThat_not (by unfold isRadix at hr; omega)]; rfl

/-- **C162** as far as it holds, `itoa` and `utoa` with a radix and a number of digits: an assertion fails exactly if the radix is not 2, 8, 10 or 16.
What is missing: numbers of digits from 2^32-3 on. -/
theorem C162_pad_partial (w : W) (v : Int) (hv : InSigned w v) (u : Nat) (hu : u < 2 ^ w.bits) (r nd : Nat) (hnd : nd < 2 ^ 32 - 3) (buf : List Nat) :
    (isRadix r → (∃ x, itoaRadixPadD w v r nd buf = .ok x ∧ itoaRadixPad w v r nd buf = .ok x) ∧
      ∃ x, utoaRadixPadD w u r nd buf = .ok x ∧ utoaRadixPad w u r nd buf = .ok x) ∧
    (¬ isRadix r → itoaRadixPadD w v r nd buf = .abort ∧ utoaRadixPadD w u r nd buf = .abort) := by
  obtain ⟨h1, h2⟩ := inSigned hv
  constructor
  · intro hr
    have e1 : itoaRadixPadD w v r nd buf = itoaRadixPad w v r nd buf := by
      unfold itoaRadixPadD itoaRadixPad
      rw [assertThat_pos (c := r = 2 ∨ r = 8 ∨ r = 10 ∨ r = 16) hr, Res.ok_bind]
      split
      · rename_i hm
        obtain ⟨pos, b, e, hp⟩ := itoaSign_spec v buf
        rw [e]
        exact radixSwitchPadD_eq (signed_lt h1 hm h2) hp hnd
      · exact itoa2bufRadixDigitsD_eq w r nd buf (by omega)
    have e2 : utoaRadixPadD w u r nd buf = utoaRadixPad w u r nd buf := by
      unfold utoaRadixPadD utoaRadixPad
      rw [assertThat_pos (by unfold isRadix at hr; omega), Res.ok_bind]
      exact radixSwitchPadD_eq hu (by omega) hnd
    exact ⟨⟨_, by rw [e1]; exact itoaRadixPad_eq w v r nd hr h1 h2 hnd buf, itoaRadixPad_eq w v r nd hr h1 h2 hnd buf⟩,
      ⟨_, by rw [e2]; exact radixSwitchPad_eq w u r nd 0 buf hu hr hnd (by omega), radixSwitchPad_eq w u r nd 0 buf hu hr hnd (by omega)⟩⟩
  · intro hr
    constructor
    · unfold itoaRadixPadD; rw [assertThat_not (c := r = 2 ∨ r = 8 ∨ r = 10 ∨ r = 16) hr]; rfl
    · unfold utoaRadixPadD; rw [assertThat_not (by unfold isRadix at hr; omega)]; rfl

/-- **C162** is false for large numbers of digits: of -1 with 2^32-1 digits, 0 characters are said to be needed, and the position after the sign lies outside
an empty buffer; the least value with 2^64-1 digits is said to fit 11 characters. -/
theorem C162_refuted :
    itoaRadixPadD .w32 (-1) 10 (2 ^ 32 - 1) [] = .abort ∧ itoaRadixPadD .w32 (-2 ^ 31) 10 (2 ^ 64 - 1) (List.replicate 11 95) = .abort := by
  decide +kernel

example : InSigned .w8 (-128) ∧ itoaD .w8 (-128) (S "_____") = .ok (4, S "-128_") ∧ itoaRadixPadD .w8 (-128) 16 4 (S "________") = .ok (7, S "-0x0080_") ∧
    itoaRadixD .w16 (-5) 7 (S "___") = .abort ∧ utoaRadixPadD .w64 (2 ^ 64 - 1) 16 0 (S "") = .ok (18, []) ∧
    writeDecUncheckedD .w32 100 2 (S "___") = .abort ∧ writeDecUncheckedD .w32 100 3 (S "___") = .ok (S "100") := by
  refine ⟨by unfold InSigned; decide, ?_⟩
  decide +kernel

end C4
