import Verif.Charconv.Write
import Verif.Props.MemUtil
import Verif.Spec.Writer
/-
Helper lemmas for the integer writers.
-/
namespace C4
open Spec

theorem isRadix_two_le {r : Nat} (h : isRadix r) : 2 ≤ r := by
  unfold isRadix at h; omega

theorem digitsDec_eq (w : W) (v : Nat) (h : v < 2 ^ w.bits) : digitsDec w v = (numeral 10 v).length := by
  have key : ∀ k, 1 ≤ k → v < 10 ^ k → (k = 1 ∨ 10 ^ (k - 1) ≤ v) → k = (numeral 10 v).length := by
    intro k hk h1 h2
    obtain ⟨n, rfl⟩ : ∃ n, k = n + 1 := ⟨k - 1, by omega⟩
    exact (numeral_length_of_bracket (by omega) h1 (by simpa using h2)).symm
  cases w <;> simp only [W.bits, Nat.reducePow] at h <;> simp only [digitsDec] <;>
    (repeat' split) <;>
    (refine key _ (by omega) ?_ ?_ <;> simp only [Nat.reducePow, Nat.reduceSub] <;> first | omega | simp)

theorem digitsBin_eq (w : W) (v : Nat) (h : v < 2 ^ w.bits) : digitsBin w v = (numeral 2 v).length := by
  unfold digitsBin
  split
  · rename_i h0
    rw [msb_eq_log2 w h h0]
    rw [numeral_length_of_bracket (n := v.log2) (by omega) Nat.lt_log2_self (Or.inr (Nat.log2_self_le h0))]
    omega
  · rename_i h0
    have : v = 0 := by omega
    subst this; rw [numeral_lt (by omega)]; rfl

theorem digitsHex_eq (w : W) (v : Nat) (h : v < 2 ^ w.bits) : digitsHex w v = (numeral 16 v).length := by
  unfold digitsHex
  split
  · rename_i h0
    rw [msb_eq_log2 w h h0, Nat.shiftRight_eq_div_pow]
    have h1 : v < 2 ^ (v.log2 + 1) := Nat.lt_log2_self
    have h2 : 2 ^ v.log2 ≤ v := Nat.log2_self_le h0
    have e16 : ∀ n, 16 ^ n = 2 ^ (4 * n) := fun n => by rw [Nat.pow_mul]
    rw [numeral_length_of_bracket (n := v.log2 / 2 ^ 2) (by omega) (v := v)]
    · omega
    · rw [e16]
      exact Nat.lt_of_lt_of_le h1 (Nat.pow_le_pow_right (by omega) (by omega))
    · right
      rw [e16]
      exact Nat.le_trans (Nat.pow_le_pow_right (by omega) (by omega)) h2
  · rename_i h0
    have : v = 0 := by omega
    subst this; rw [numeral_lt (by omega)]; rfl

theorem digitsOctLoop_eq : ∀ (v f n : Nat), v < f →
    digitsOctLoop f v (n+1) = .ok (n + (numeral 8 v).length) := by
  intro v
  induction v using Nat.strongRecOn with
  | ind v ih =>
    intro f n hf
    cases f with
    | zero => omega
    | succ f =>
      unfold digitsOctLoop
      split
      · rw [numeral_length_of_bracket (n := 0) (by omega) (by omega) (by omega)]
      · split
        · rw [numeral_length_of_bracket (n := 1) (by omega) (by omega) (by omega)]
        · split
          · rw [numeral_length_of_bracket (n := 2) (by omega) (by omega) (by omega)]
          · split
            · rw [numeral_length_of_bracket (n := 3) (by omega) (by omega) (by omega)]
            · have e := ih (v / 4096) (by omega) f (n + 4) (by omega)
              rw [show n + 1 + 4 = n + 4 + 1 by omega, e]
              have h4 : (numeral 8 v).length = (numeral 8 (v / 4096)).length + 4 := by
                rw [numeral_ge (by omega) (show 8 ≤ v by omega),
                  numeral_ge (v := v / 8) (by omega) (by omega),
                  numeral_ge (v := v / 8 / 8) (by omega) (by omega),
                  numeral_ge (v := v / 8 / 8 / 8) (by omega) (by omega)]
                simp [Nat.div_div_eq_div_mul]
              rw [h4]; congr 1; omega

theorem digitsOct_eq (v : Nat) : digitsOct v = .ok (numeral 8 v).length := by
  unfold digitsOct
  rw [digitsOctLoop_eq v (v+1) 0 (by omega)]; simp

/-- Backward digit loops. -/
theorem back_loop (b : Nat) (hb : 2 ≤ b) (loop : Nat → List Nat → Nat → Nat → Res (List Nat))
    (hstep : ∀ f buf v d, loop (f+1) buf v (d+1) =
      if d < buf.length then
        (if v / b ≠ 0 then loop f (buf.set d (digitChar (v % b))) (v / b) d
         else .ok (buf.set d (digitChar (v % b))))
      else .ub) :
    ∀ v f buf d, v < f → (numeral b v).length ≤ d → d ≤ buf.length →
      loop f buf v d = .ok (buf.take (d - (numeral b v).length) ++ numeralText b v ++ buf.drop d) := by
  intro v
  induction v using Nat.strongRecOn with
  | ind v ih =>
    intro f buf d hf hd hbuf
    have hpos := numeral_length_pos hb v
    cases f with
    | zero => omega
    | succ f =>
      cases d with
      | zero => omega
      | succ d =>
        rw [hstep, if_pos (by omega)]
        have hdrop : (buf.set d (digitChar (v % b))).drop d = digitChar (v % b) :: buf.drop (d+1) := by
          rw [List.drop_set]
          simp only [Nat.lt_irrefl, if_false, Nat.sub_self]
          rw [List.drop_eq_getElem_cons (by omega), List.set_cons_zero]
        split
        · rename_i h
          have hge : b ≤ v := by
            apply Nat.le_of_not_lt
            intro hlt
            exact h (Nat.div_eq_of_lt hlt)
          have hlt : v / b < v := Nat.div_lt_self (by omega) (by omega)
          have hL : (numeral b v).length = (numeral b (v/b)).length + 1 := by
            rw [numeral_ge hb hge]; simp
          rw [ih (v/b) hlt f _ d (by omega) (by omega) (by simp; omega), hdrop]
          congr 1
          rw [List.take_set_of_le (by omega), hL]
          have : d + 1 - ((numeral b (v / b)).length + 1) = d - (numeral b (v/b)).length := by omega
          rw [this]
          simp [numeralText, numeral_ge hb hge]
        · rename_i h
          have hlt : v < b := by
            apply Nat.lt_of_not_le
            intro hge
            have : 1 ≤ v / b := Nat.div_pos hge (by omega)
            omega
          congr 1
          rw [numeralText, numeral_lt hlt, List.set_eq_take_append_cons_drop, if_pos (by omega),
            Nat.mod_eq_of_lt hlt]
          simp

theorem writeHexUnchecked_eq (v : Nat) (buf : List Nat) (f d : Nat) (hf : v < f)
    (hd : (numeral 16 v).length ≤ d) (hb : d ≤ buf.length) :
    writeHexUnchecked f buf v d =
      .ok (buf.take (d - (numeral 16 v).length) ++ numeralText 16 v ++ buf.drop d) := by
  apply back_loop 16 (by omega) writeHexUnchecked _ v f buf d hf hd hb
  intro f buf v d
  have h1 : v &&& 15 = v % 16 := Nat.and_two_pow_sub_one_eq_mod v 4
  have h2 : v >>> 4 = v / 16 := by rw [Nat.shiftRight_eq_div_pow]
  have h3 : rd hexchars (v % 16) = .ok (digitChar (v % 16)) := by
    have : ∀ x < 16, rd hexchars x = .ok (digitChar x) := by decide
    exact this _ (by omega)
  rw [writeHexUnchecked]
  simp only [dec32_succ, h1, h2, h3, Res.ok_bind]
  unfold wr
  split <;> simp

theorem writeOctUnchecked_eq (v : Nat) (buf : List Nat) (f d : Nat) (hf : v < f)
    (hd : (numeral 8 v).length ≤ d) (hb : d ≤ buf.length) :
    writeOctUnchecked f buf v d =
      .ok (buf.take (d - (numeral 8 v).length) ++ numeralText 8 v ++ buf.drop d) := by
  apply back_loop 8 (by omega) writeOctUnchecked _ v f buf d hf hd hb
  intro f buf v d
  have h1 : v &&& 7 = v % 8 := Nat.and_two_pow_sub_one_eq_mod v 3
  have h2 : v >>> 3 = v / 8 := by rw [Nat.shiftRight_eq_div_pow]
  have h3 : 48 + v % 8 = digitChar (v % 8) := by
    rw [digitChar, if_pos (by omega)]
  rw [writeOctUnchecked]
  simp only [dec32_succ, h1, h2, h3]
  unfold wr
  split <;> simp

theorem writeBinUnchecked_eq (v : Nat) (buf : List Nat) (f d : Nat) (hf : v < f)
    (hd : (numeral 2 v).length ≤ d) (hb : d ≤ buf.length) :
    writeBinUnchecked f buf v d =
      .ok (buf.take (d - (numeral 2 v).length) ++ numeralText 2 v ++ buf.drop d) := by
  apply back_loop 2 (by omega) writeBinUnchecked _ v f buf d hf hd hb
  intro f buf v d
  have h1 : v &&& 1 = v % 2 := Nat.and_two_pow_sub_one_eq_mod v 1
  have h2 : v >>> 1 = v / 2 := by rw [Nat.shiftRight_eq_div_pow]
  have h3 : 48 + v % 2 = digitChar (v % 2) := by
    rw [digitChar, if_pos (by omega)]
  rw [writeBinUnchecked]
  simp only [dec32_succ, h1, h2, h3]
  unfold wr
  split <;> simp

theorem digits0099_spec : ∀ x < 100, rd digits0099 (x <<< 1) = .ok (48 + x / 10) ∧
    rd digits0099 (x <<< 1 + 1) = .ok (48 + x % 10) := by decide +kernel

attribute [local irreducible] digits0099 in
theorem writeDecUnchecked_eq : ∀ (v f : Nat) (buf : List Nat), v < f →
    (numeral 10 v).length ≤ buf.length →
    writeDecUnchecked f buf v (numeral 10 v).length =
      .ok (numeralText 10 v ++ buf.drop (numeral 10 v).length) := by
  intro v
  induction v using Nat.strongRecOn with
  | ind v ih =>
    intro f buf hf hbuf
    cases f with
    | zero => omega
    | succ f =>
      unfold writeDecUnchecked
      split
      · rename_i h
        have hn : numeral 10 v = numeral 10 (v / 100) ++ [v / 10 % 10, v % 10] := by
          rw [numeral_ge (by omega) (show 10 ≤ v by omega), numeral_ge (v := v / 10) (by omega) (by omega)]
          simp [Nat.div_div_eq_div_mul]
        have hL : (numeral 10 v).length = (numeral 10 (v/100)).length + 2 := by rw [hn]; simp
        have hm : v - v / 100 * 100 = v % 100 := by omega
        obtain ⟨t0, t1⟩ := digits0099_spec (v % 100) (by omega)
        have d1 : dec32 (numeral 10 v).length = (numeral 10 (v/100)).length + 1 := by
          rw [hL]; simp
        simp only [hm, t0, t1, d1, Res.ok_bind, dec32_succ]
        rw [wr_ok (by omega), Res.ok_bind, wr_ok (by simp; omega), Res.ok_bind]
        rw [ih (v/100) (by omega) f _ (by omega) (by simp; omega)]
        congr 1
        have hx : v % 100 / 10 = v / 10 % 10 := by omega
        have hy : v % 100 % 10 = v % 10 := by omega
        rw [hx, hy]
        have hlt1 : (numeral 10 (v/100)).length < buf.length := by omega
        have hlt2 : (numeral 10 (v/100)).length + 1 < buf.length := by omega
        rw [hL, List.drop_set, if_neg (by omega), Nat.sub_self, List.drop_set, if_neg (by omega)]
        rw [Nat.add_sub_cancel_left, List.drop_eq_getElem_cons hlt1, List.drop_eq_getElem_cons hlt2]
        simp only [List.set_cons_succ, List.set_cons_zero, numeralText, hn, List.map_append, List.map_cons,
          List.map_nil]
        have c1 : digitChar (v / 10 % 10) = 48 + v / 10 % 10 := by rw [digitChar, if_pos (by omega)]
        have c2 : digitChar (v % 10) = 48 + v % 10 := by rw [digitChar, if_pos (by omega)]
        rw [c1, c2]
        simp
      · split
        · rename_i h1 h2
          have hn : numeral 10 v = [v / 10, v % 10] := by
            rw [numeral_ge (by omega) (show 10 ≤ v by omega), numeral_lt (by omega)]; rfl
          obtain ⟨t0, t1⟩ := digits0099_spec v (by omega)
          have hL : (numeral 10 v).length = 2 := by rw [hn]; rfl
          simp only [t0, t1, Res.ok_bind]
          rw [wr_ok (by omega), Res.ok_bind, wr_ok (by simp; omega)]
          congr 1
          rw [hL, numeralText, hn]
          have c1 : digitChar (v / 10) = 48 + v / 10 := by rw [digitChar, if_pos (by omega)]
          have c2 : digitChar (v % 10) = 48 + v % 10 := by rw [digitChar, if_pos (by omega)]
          match buf, hbuf with
          | [], h => simp [hL] at h
          | [_], h => simp [hL] at h
          | a :: b :: rest, _ => simp [c1, c2]
        · rename_i h1 h2
          have hn : numeral 10 v = [v] := numeral_lt (by omega)
          have hL : (numeral 10 v).length = 1 := by rw [hn]; rfl
          rw [wr_ok (by omega)]
          congr 1
          have c1 : digitChar v = 48 + v := by rw [digitChar, if_pos (by omega)]
          rw [hL, numeralText, hn]
          match buf, hbuf with
          | [], h => simp [hL] at h
          | a :: rest, _ => simp [c1]

end C4
