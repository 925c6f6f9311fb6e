import Verif.FastFloat.DigitComp
import Verif.Props.FFParse
import Verif.Props.FFBigint
/-
The big number that is made from the digits of a text.
-/
namespace C4.FF
open Spec

theorem scientificExponent_eq (m : Nat) (e : Int) (h1 : 10 ^ 18 ≤ m) (h2 : m < 10 ^ 19) : scientificExponent m e = e + 18 := by
  have a1 : sciLoop 10000 4 20 m e = (m / 10000 / 10000 / 10000 / 10000, e + 4 + 4 + 4 + 4) := by
    rw [sciLoop, if_pos (by omega), sciLoop, if_pos (by omega), sciLoop, if_pos (by omega), sciLoop, if_pos (by omega), sciLoop, if_neg (by omega)]
  have a2 : ∀ e : Int, sciLoop 100 2 20 (m / 10000 / 10000 / 10000 / 10000) e = (m / 10000 / 10000 / 10000 / 10000 / 100, e + 2) := by
    intro e
    rw [sciLoop, if_pos (by omega), sciLoop, if_neg (by omega)]
  have a3 : ∀ e : Int, sciLoop 10 1 20 (m / 10000 / 10000 / 10000 / 10000 / 100) e = (m / 10000 / 10000 / 10000 / 10000 / 100, e) := by
    intro e
    rw [sciLoop, if_neg (by omega)]
  unfold scientificExponent
  rw [a1]
  dsimp only
  rw [a2]
  dsimp only
  rw [a3]
  dsimp only
  omega

theorem read8_zeros (c0 c1 c2 c3 c4 c5 c6 c7 : Nat) (h0 : c0 < 256) (h1 : c1 < 256) (h2 : c2 < 256) (h3 : c3 < 256) (h4 : c4 < 256) (h5 : c5 < 256)
    (h6 : c6 < 256) (_h7 : c7 < 256) : read8 [c0, c1, c2, c3, c4, c5, c6, c7] = 0x3030303030303030 ↔
      c0 = 48 ∧ c1 = 48 ∧ c2 = 48 ∧ c3 = 48 ∧ c4 = 48 ∧ c5 = 48 ∧ c6 = 48 ∧ c7 = 48 := by
  simp only [read8]
  omega

theorem skipZeros1_eq (s : List Nat) : skipZeros1 s = s.dropWhile (· == 48) := by
  induction s with
  | nil => rfl
  | cons c s ih =>
    rw [skipZeros1]
    by_cases h : c = 48
    · rw [if_neg (by simpa using h), ih, List.dropWhile_cons_of_pos (by simp [h])]
    · rw [if_pos h, List.dropWhile_cons_of_neg (by simp [h])]

theorem skipZeros_eq (s : List Nat) (hb : ∀ c ∈ s, c < 256) : skipZeros s = s.dropWhile (· == 48) := by
  fun_induction skipZeros s with
  | case1 c0 c1 c2 c3 c4 c5 c6 c7 s h => exact skipZeros1_eq _
  | case2 c0 c1 c2 c3 c4 c5 c6 c7 s h ih =>
    rw [ih (fun c hc => hb c (by simp [hc]))]
    have := (read8_zeros c0 c1 c2 c3 c4 c5 c6 c7 (hb _ (by simp)) (hb _ (by simp)) (hb _ (by simp)) (hb _ (by simp)) (hb _ (by simp)) (hb _ (by simp))
      (hb _ (by simp)) (hb _ (by simp))).mp (by simpa using h)
    obtain ⟨rfl, rfl, rfl, rfl, rfl, rfl, rfl, rfl⟩ := this
    rfl
  | case3 s h => exact skipZeros1_eq _

theorem isTruncated1_iff (s : List Nat) : isTruncated1 s = true ↔ ∃ c ∈ s, c ≠ 48 := by
  induction s with
  | nil => simp [isTruncated1]
  | cons c s ih =>
    rw [isTruncated1]
    by_cases h : c ≠ 48
    · rw [if_pos h]; simp [h]
    · rw [if_neg h, ih]
      have : c = 48 := by simpa using h
      simp [this]

theorem isTruncated_iff (s : List Nat) (hb : ∀ c ∈ s, c < 256) : isTruncated s = true ↔ ∃ c ∈ s, c ≠ 48 := by
  fun_induction isTruncated s with
  | case1 c0 c1 c2 c3 c4 c5 c6 c7 s h =>
    simp only [true_iff]
    by_contra hcon
    push Not at hcon
    apply h
    rw [read8_zeros c0 c1 c2 c3 c4 c5 c6 c7 (hb _ (by simp)) (hb _ (by simp)) (hb _ (by simp)) (hb _ (by simp)) (hb _ (by simp)) (hb _ (by simp))
      (hb _ (by simp)) (hb _ (by simp))]
    refine ⟨?_, ?_, ?_, ?_, ?_, ?_, ?_, ?_⟩ <;> exact hcon _ (by simp)
  | case2 c0 c1 c2 c3 c4 c5 c6 c7 s h ih =>
    rw [ih (fun c hc => hb c (by simp [hc]))]
    have := (read8_zeros c0 c1 c2 c3 c4 c5 c6 c7 (hb _ (by simp)) (hb _ (by simp)) (hb _ (by simp)) (hb _ (by simp)) (hb _ (by simp)) (hb _ (by simp))
      (hb _ (by simp)) (hb _ (by simp))).mp (by simpa using h)
    obtain ⟨rfl, rfl, rfl, rfl, rfl, rfl, rfl, rfl⟩ := this
    simp
  | case3 s h => exact isTruncated1_iff _

theorem digitsVal_eq_zero (s : List Nat) (h : ∀ c ∈ s, IsDigit c) : digitsVal s = 0 ↔ ¬ ∃ c ∈ s, c ≠ 48 := by
  induction s with
  | nil => simp [digitsVal_nil]
  | cons c s ih =>
    have hc := h c (by simp)
    unfold IsDigit at hc
    rw [digitsVal_cons, Nat.add_eq_zero_iff, ih (fun c hc => h c (by simp [hc])), Nat.mul_eq_zero]
    have : 10 ^ s.length ≠ 0 := (Nat.pow_pos (by omega)).ne'
    have h48 : c - 48 = 0 ↔ c = 48 := by omega
    simp only [this, or_false, h48, List.mem_cons, exists_eq_or_imp, not_or, not_not]

/-- The state after digits of `p` have been taken: a new `p`, `value`, `counter` and `digits`. -/
def took (p : List Nat) (value counter digits j : Nat) : List Nat × Nat × Nat × Nat :=
  (p.drop j, value * 10 ^ j + digitsVal (p.take j), counter + j, digits + j)

theorem took_took (p : List Nat) (v c d j k : Nat) (hj : j + k ≤ p.length) :
    took (took p v c d j).1 (took p v c d j).2.1 (took p v c d j).2.2.1 (took p v c d j).2.2.2 k = took p v c d (j + k) := by
  unfold took
  have e : p.take (j + k) = p.take j ++ (p.drop j).take k := List.take_add
  have hl : ((p.drop j).take k).length = k := by rw [List.length_take, List.length_drop]; omega
  rw [e, digitsVal_append, hl, List.drop_drop]
  refine Prod.ext rfl (Prod.ext ?_ (Prod.ext ?_ ?_))
  · dsimp only; rw [Nat.pow_add]; ring
  · dsimp only; omega
  · dsimp only; omega

theorem took_lt (p : List Nat) (v c d j : Nat) (hd : ∀ x ∈ p, IsDigit x) (hv : v < 10 ^ c) (hj : j ≤ p.length) : (took p v c d j).2.1 < 10 ^ (c + j) := by
  unfold took
  dsimp only
  have h1 := digitsVal_lt (p.take j) (fun x hx => hd x (List.mem_of_mem_take hx))
  rw [List.length_take, Nat.min_eq_left hj] at h1
  have h2 : (v + 1) * 10 ^ j ≤ 10 ^ c * 10 ^ j := Nat.mul_le_mul_right _ hv
  rw [Nat.add_mul, Nat.one_mul, ← Nat.pow_add] at h2
  omega

theorem took_zero (p : List Nat) (v c d : Nat) : took p v c d 0 = (p, v, c, d) := by simp [took, digitsVal_nil]

theorem pow19 (c : Nat) (h : c ≤ 19) : 10 ^ c ≤ 10 ^ 19 := Nat.pow_le_pow_right (by omega) h

theorem eight_value (c0 c1 c2 c3 c4 c5 c6 c7 : Nat) (hd : ∀ x ∈ [c0, c1, c2, c3, c4, c5, c6, c7], IsDigit x) :
    parseEightDigitsUnrolled (read8 [c0, c1, c2, c3, c4, c5, c6, c7]) = digitsVal [c0, c1, c2, c3, c4, c5, c6, c7] := by
  unfold IsDigit at hd
  have h0 := hd c0 (by simp); have h1 := hd c1 (by simp); have h2 := hd c2 (by simp); have h3 := hd c3 (by simp)
  have h4 := hd c4 (by simp); have h5 := hd c5 (by simp); have h6 := hd c6 (by simp); have h7 := hd c7 (by simp)
  have := parseEight_digits (c0 - 48) (c1 - 48) (c2 - 48) (c3 - 48) (c4 - 48) (c5 - 48) (c6 - 48) (c7 - 48)
    (by omega) (by omega) (by omega) (by omega) (by omega) (by omega) (by omega) (by omega)
  rw [Nat.sub_add_cancel h0.1, Nat.sub_add_cancel h1.1, Nat.sub_add_cancel h2.1, Nat.sub_add_cancel h3.1, Nat.sub_add_cancel h4.1,
    Nat.sub_add_cancel h5.1, Nat.sub_add_cancel h6.1, Nat.sub_add_cancel h7.1] at this
  rw [this]
  rfl

theorem eightLoop_spec (maxD : Nat) (p : List Nat) (v c d : Nat) (hd : ∀ x ∈ p, IsDigit x) (hv : v < 10 ^ c) (hc : c ≤ 19) :
    ∃ j, eightLoop maxD p v c d = took p v c d j ∧ j ≤ p.length ∧ c + j ≤ 19 ∧ (d ≤ maxD → d + j ≤ maxD) := by
  fun_induction eightLoop maxD p v c d with
  | case1 c0 c1 c2 c3 c4 c5 c6 c7 s v c d h ih =>
    obtain ⟨p, hp⟩ : ∃ p, c0 :: c1 :: c2 :: c3 :: c4 :: c5 :: c6 :: c7 :: s = p := ⟨_, rfl⟩
    have ht : took p v c d 8 = (s, v * 100000000 + digitsVal [c0, c1, c2, c3, c4, c5, c6, c7], c + 8, d + 8) := by rw [← hp]; rfl
    have hpl : p.length = s.length + 8 := by rw [← hp]; rfl
    have e8 := eight_value c0 c1 c2 c3 c4 c5 c6 c7 (fun x hx => hd x (by
      simp only [List.mem_cons, List.not_mem_nil, or_false] at hx ⊢
      tauto))
    rw [hp] at hd ⊢
    have hlt := took_lt p v c d 8 hd hv (by omega)
    rw [ht] at hlt
    dsimp only at hlt
    have h19 := pow19 (c + 8) (by omega)
    have hm : (v * 100000000 + parseEightDigitsUnrolled (read8 [c0, c1, c2, c3, c4, c5, c6, c7])) % 2 ^ 64 =
        v * 100000000 + digitsVal [c0, c1, c2, c3, c4, c5, c6, c7] := by
      rw [e8]
      exact Nat.mod_eq_of_lt (by omega)
    rw [hm] at ih ⊢
    obtain ⟨j, j1, j2, j3, j4⟩ := ih (fun x hx => hd x (by rw [← hp]; simp [hx])) hlt (by omega)
    refine ⟨8 + j, ?_, by omega, by omega, by omega⟩
    rw [j1, ← took_took p v c d 8 j (by omega), ht]
  | case2 => exact ⟨0, by rw [took_zero], by omega, by omega, by omega⟩
  | case3 => exact ⟨0, by rw [took_zero], by omega, by omega, by omega⟩

theorem oneLoop_spec (maxD : Nat) : ∀ (p : List Nat) (v c d : Nat), (∀ x ∈ p, IsDigit x) → v < 10 ^ c → c ≤ 19 →
    oneLoop maxD p v c d = took p v c d (min (min (19 - c) (maxD - d)) p.length) := by
  intro p
  induction p with
  | nil => intro v c d _ _ _; simp [oneLoop, took, digitsVal_nil]
  | cons x s ih =>
    intro v c d hd hv hc
    rw [oneLoop]
    by_cases h : c < 19 ∧ d < maxD
    · rw [if_pos h]
      have hlt := took_lt (x :: s) v c d 1 hd hv (by simp)
      have e1 : took (x :: s) v c d 1 = (s, v * 10 + (x - 48), c + 1, d + 1) := by simp [took, digitsVal_cons, digitsVal_nil]
      rw [e1] at hlt
      dsimp only at hlt
      have h19 := pow19 (c + 1) (by omega)
      rw [Nat.mod_eq_of_lt (by omega), ih _ _ _ (fun y hy => hd y (by simp [hy])) hlt (by omega)]
      have hk : min (min (19 - c) (maxD - d)) (x :: s).length = 1 + min (min (19 - (c + 1)) (maxD - (d + 1))) s.length := by
        rw [List.length_cons]; omega
      rw [hk, ← took_took (x :: s) v c d 1 _ (by rw [List.length_cons]; omega), e1]
    · rw [if_neg h]
      have : min (min (19 - c) (maxD - d)) (x :: s).length = 0 := by omega
      rw [this, took_zero]

theorem loops_spec (maxD : Nat) (p : List Nat) (d : Nat) (hd : ∀ x ∈ p, IsDigit x) (hdm : d ≤ maxD) :
    ∃ v, (let r := eightLoop maxD p 0 0 d; oneLoop maxD r.1 r.2.1 r.2.2.1 r.2.2.2) = v ∧ v = took p 0 0 d (min (min 19 (maxD - d)) p.length) := by
  refine ⟨_, rfl, ?_⟩
  obtain ⟨j, j1, j2, j3, j4⟩ := eightLoop_spec maxD p 0 0 d hd (by simp) (by omega)
  dsimp only
  have hlt := took_lt p 0 0 d j hd (by simp) j2
  rw [j1, oneLoop_spec maxD (took p 0 0 d j).1 _ _ _ (fun x hx => hd x (List.mem_of_mem_drop hx)) (by unfold took at hlt ⊢; exact hlt) (by unfold took; exact j3)]
  have hj4 := j4 hdm
  have hk : min (min 19 (maxD - d)) p.length = j + min (min (19 - (took p 0 0 d j).2.2.1) (maxD - (took p 0 0 d j).2.2.2)) (took p 0 0 d j).1.length := by
    unfold took
    dsimp only
    rw [List.length_drop]
    omega
  rw [hk, ← took_took p 0 0 d j _ (by omega)]

theorem powersOfTen_get (k : Nat) (h : k ≤ 19) : powersOfTenUint64.getD k 0 = 10 ^ k := by
  have : ∀ k < 20, powersOfTenUint64.getD k 0 = 10 ^ k := by decide +kernel
  exact this k (by omega)

theorem Big.addNative {v : List Nat} {n p a : Nat} (h : Big v n) (hp : 0 < p) (hp2 : p < 2 ^ 64) (ha : a < 2 ^ 64) (hs : n * p + a < (2 ^ 64) ^ 62) :
    Big (addNative v p a) (n * p + a) := by
  obtain ⟨_, h1⟩ := h.mul hp2 hp (by omega)
  exact (h1.add ha hs).2

/-- Whether digits are dropped that are not all zeros. -/
def nz (s : List Nat) : Nat := if digitsVal s = 0 then 0 else 1

theorem nz_of_truncated (s : List Nat) (h : ∀ c ∈ s, IsDigit c) : isTruncated s = decide (digitsVal s ≠ 0) := by
  rw [Bool.eq_iff_iff, isTruncated_iff s (fun c hc => by have := h c hc; unfold IsDigit at this; omega), decide_eq_true_iff, Ne, digitsVal_eq_zero s h, not_not]

theorem digitsVal_append_zero (s t : List Nat) : digitsVal (s ++ t) ≠ 0 ↔ digitsVal s ≠ 0 ∨ digitsVal t ≠ 0 := by
  rw [digitsVal_append]
  have : 0 < 10 ^ t.length := Nat.pow_pos (by omega)
  constructor
  · intro h
    by_contra hcon
    push Not at hcon
    rw [hcon.1, hcon.2] at h
    simp at h
  · rintro (h | h) hcon
    · rw [Nat.add_eq_zero_iff, Nat.mul_eq_zero] at hcon
      omega
    · omega

/-- The digits in front, and a digit 1 for others that are not all zeros. -/
def sticky (maxD : Nat) (D : List Nat) : Nat × Nat :=
  if digitsVal (D.drop maxD) = 0 then (digitsVal (D.take maxD), min D.length maxD) else (10 * digitsVal (D.take maxD) + 1, maxD + 1)

set_option exponentiation.threshold 4000 in
theorem digitsVal_lt_cap (s : List Nat) (h : ∀ c ∈ s, IsDigit c) (hl : s.length ≤ 1000) : digitsVal s * 10 + 1 < (2 ^ 64) ^ 62 := by
  have h1 := digitsVal_lt s h
  have h2 : 10 ^ s.length ≤ 10 ^ 1000 := Nat.pow_le_pow_right (by omega) hl
  have h3 : 10 ^ 1000 * 10 + 1 < (2 ^ 64) ^ 62 := by decide +kernel
  have h4 : digitsVal s * 10 + 1 ≤ 10 ^ 1000 * 10 + 1 := by
    have := Nat.mul_le_mul_right 10 (le_trans h1.le h2)
    exact Nat.add_le_add_right this 1
  exact lt_of_le_of_lt h4 h3

theorem mantissaLoop_spec (maxD : Nat) (more : List Nat) (hm : ∀ c ∈ more, IsDigit c) (hM : maxD ≤ 1000) : ∀ (fuel : Nat) (p A result : List Nat),
    p.length ≤ fuel → (∀ c ∈ p, IsDigit c) → (∀ c ∈ A, IsDigit c) → Big result (digitsVal A) → A.length < maxD →
    (A.length + p.length < maxD ∧ ∃ r, mantissaLoop maxD more fuel p result A.length = (r, A.length + p.length, false) ∧ Big r (digitsVal (A ++ p))) ∨
    (maxD ≤ A.length + p.length ∧ ∃ r, mantissaLoop maxD more fuel p result A.length = (r, (sticky maxD (A ++ p ++ more)).2, true) ∧
      Big r (sticky maxD (A ++ p ++ more)).1) := by
  intro fuel
  induction fuel with
  | zero =>
    intro p A result hl _ _ hb hA
    have : p = [] := List.length_eq_zero_iff.mp (by omega)
    subst this
    left
    exact ⟨by simpa using hA, result, rfl, by rw [List.append_nil]; exact hb⟩
  | succ fuel ih =>
    intro p A result hl hp hAd hb hA
    rw [mantissaLoop]
    by_cases hnil : p = []
    · rw [if_pos hnil]
      subst hnil
      left
      exact ⟨by simpa using hA, result, rfl, by rw [List.append_nil]; exact hb⟩
    · rw [if_neg hnil]
      have hpl : 0 < p.length := List.length_pos_iff.mpr hnil
      obtain ⟨r, hr1, hr2⟩ := loops_spec maxD p A.length hp (by omega)
      dsimp only at hr1 ⊢
      rw [hr1, hr2]
      obtain ⟨k, hk⟩ : ∃ k, min (min 19 (maxD - A.length)) p.length = k := ⟨_, rfl⟩
      rw [hk]
      have hlt := took_lt p 0 0 A.length k hp (by simp) (by omega)
      unfold took at hlt ⊢
      dsimp only at hlt ⊢
      rw [Nat.zero_mul, Nat.zero_add, Nat.zero_add] at hlt ⊢
      have h19 := pow19 k (by omega)
      have hAk : ∀ c ∈ A ++ p.take k, IsDigit c := by
        intro c hc
        rcases List.mem_append.mp hc with h | h
        · exact hAd c h
        · exact hp c (List.mem_of_mem_take h)
      have hAl : (A ++ p.take k).length = A.length + k := by rw [List.length_append, List.length_take]; omega
      have hcap := digitsVal_lt_cap (A ++ p.take k) hAk (by omega)
      have hval : digitsVal (A ++ p.take k) = digitsVal A * 10 ^ k + digitsVal (p.take k) := by
        rw [digitsVal_append, List.length_take, Nat.min_eq_left (by omega)]
      have hbig : Big (addNative result (powersOfTenUint64.getD k 0) (digitsVal (p.take k))) (digitsVal (A ++ p.take k)) := by
        rw [powersOfTen_get k (by omega), hval]
        refine hb.addNative (Nat.pow_pos (by omega)) (by omega) (by omega) ?_
        rw [← hval]
        omega
      have hsplit : A ++ p.take k ++ p.drop k = A ++ p := by rw [List.append_assoc, List.take_append_drop]
      by_cases hmax : A.length + k = maxD
      · rw [if_pos hmax]
        right
        refine ⟨by omega, ?_⟩
        have htake : (A ++ p ++ more).take maxD = A ++ p.take k := by
          rw [← hsplit, List.append_assoc, List.take_left' (by rw [hAl, hmax])]
        have hdrop : (A ++ p ++ more).drop maxD = p.drop k ++ more := by
          rw [← hsplit, List.append_assoc, List.drop_left' (by rw [hAl, hmax])]
        have hdk : ∀ c ∈ p.drop k, IsDigit c := fun c hc => hp c (List.mem_of_mem_drop hc)
        have htr : (isTruncated (p.drop k) || isTruncated more) = decide (digitsVal (p.drop k ++ more) ≠ 0) := by
          rw [nz_of_truncated _ hdk, nz_of_truncated _ hm, Bool.eq_iff_iff, Bool.or_eq_true, decide_eq_true_iff, decide_eq_true_iff,
            decide_eq_true_iff, digitsVal_append_zero]
        have hlen : min (A ++ p ++ more).length maxD = maxD := by
          rw [List.length_append, List.length_append]; omega
        unfold sticky
        rw [htake, hdrop, hlen, htr, hmax]
        by_cases h0 : digitsVal (p.drop k ++ more) = 0
        · rw [if_pos h0, if_neg (by simp [h0])]
          exact ⟨_, rfl, hbig⟩
        · rw [if_neg h0, if_pos (by simp [h0])]
          refine ⟨_, rfl, ?_⟩
          dsimp only
          rw [Nat.mul_comm 10]
          exact hbig.addNative (by omega) (by omega) (by omega) hcap
      · rw [if_neg hmax]
        have hrec := ih (p.drop k) (A ++ p.take k) (addNative result (powersOfTenUint64.getD k 0) (digitsVal (p.take k)))
          (by rw [List.length_drop]; omega) (fun c hc => hp c (List.mem_of_mem_drop hc)) hAk hbig (by omega)
        rw [hsplit, hAl, List.length_drop, show A.length + k + (p.length - k) = A.length + p.length by omega] at hrec
        exact hrec

theorem parseMantissa_spec (maxD : Nat) (hM : maxD ≤ 1000) (hM0 : 0 < maxD) (int : List Nat) (frac : Option (List Nat))
    (hD : ∀ c ∈ int ++ frac.getD [], IsDigit c) :
    (parseMantissa maxD int frac).2 = (sticky maxD ((int ++ frac.getD []).dropWhile (· == 48))).2 ∧
    Big (parseMantissa maxD int frac).1 (sticky maxD ((int ++ frac.getD []).dropWhile (· == 48))).1 := by
  have hi : ∀ c ∈ int, IsDigit c := fun c hc => hD c (List.mem_append_left _ hc)
  have hf : ∀ c ∈ frac.getD [], IsDigit c := fun c hc => hD c (List.mem_append_right _ hc)
  have h256 : ∀ (s : List Nat), (∀ c ∈ s, IsDigit c) → ∀ c ∈ s, c < 256 := by
    intro s h c hc
    have := h c hc
    unfold IsDigit at this
    omega
  have hnil : Big [] (digitsVal []) := ⟨Limbs.nil, Norm.nil, rfl⟩
  have hst : ∀ (D : List Nat), D.length < maxD → sticky maxD D = (digitsVal D, D.length) := by
    intro D h
    unfold sticky
    rw [List.drop_of_length_le (by omega), List.take_of_length_le (by omega), digitsVal_nil, if_pos rfl, Nat.min_eq_left (by omega)]
  unfold parseMantissa
  rw [skipZeros_eq int (h256 int hi)]
  dsimp only
  obtain ⟨s, hs⟩ : ∃ s, int.dropWhile (· == 48) = s := ⟨_, rfl⟩
  have hsd : ∀ c ∈ s, IsDigit c := by rw [← hs]; exact dropWhile_digits _ int hi
  rw [hs]
  have key := mantissaLoop_spec maxD (frac.getD []) hf hM s.length s [] [] (le_refl _) hsd (by simp) hnil hM0
  simp only [List.nil_append, List.length_nil, Nat.zero_add] at key
  -- the significant digits of the whole
  have hsig : (int ++ frac.getD []).dropWhile (· == 48) = if s = [] then (frac.getD []).dropWhile (· == 48) else s ++ frac.getD [] := by
    rw [List.dropWhile_append, hs]
    simp only [List.isEmpty_iff]
  rcases key with ⟨hlt, r, hr, hbig⟩ | ⟨hge, r, hr, hbig⟩
  · rw [hr]
    dsimp only
    simp only [Bool.false_eq_true, if_false]
    cases frac with
    | none =>
      dsimp only
      have : (int ++ (none : Option (List Nat)).getD []).dropWhile (· == 48) = s := by simp [hs]
      rw [this, hst s hlt]
      exact ⟨rfl, hbig⟩
    | some fr =>
      dsimp only
      rw [Option.getD_some] at hsig hf ⊢
      rw [skipZeros_eq fr (h256 fr hf), hsig]
      obtain ⟨q, hq⟩ : ∃ q, (if s.length = 0 then fr.dropWhile (· == 48) else fr) = q := ⟨_, rfl⟩
      have hq2 : (if s = [] then fr.dropWhile (· == 48) else s ++ fr) = s ++ q := by
        rw [← hq]
        by_cases h0 : s = []
        · rw [if_pos h0, if_pos (by rw [h0]; rfl), h0, List.nil_append]
        · rw [if_neg h0, if_neg (fun h => h0 (List.length_eq_zero_iff.mp h))]
      have hqd : ∀ c ∈ q, IsDigit c := by
        rw [← hq]
        split
        · exact dropWhile_digits _ fr hf
        · exact hf
      rw [hq, hq2]
      have key2 := mantissaLoop_spec maxD [] (by simp) hM q.length q s r (le_refl _) hqd hsd hbig hlt
      rw [List.append_nil] at key2
      rcases key2 with ⟨hlt2, r2, hr2, hbig2⟩ | ⟨hge2, r2, hr2, hbig2⟩
      · rw [hr2, hst (s ++ q) (by rw [List.length_append]; exact hlt2)]
        exact ⟨(List.length_append).symm, hbig2⟩
      · rw [hr2]
        exact ⟨rfl, hbig2⟩
  · rw [hr]
    dsimp only
    simp only [if_true]
    have hne : s ≠ [] := by rintro rfl; simp at hge; omega
    rw [hsig, if_neg hne]
    exact ⟨rfl, hbig⟩

end C4.FF
