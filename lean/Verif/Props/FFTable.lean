import Verif.FastFloat.Compute
import Verif.Props.FFCert
import Verif.Props.IeeeRound
import Mathlib.Tactic.NormNum
/-
The table of powers of five of fast_float: every entry is the power it stands for, cut off or rounded up, and no multiple of 2^137 lies between
the product of a 64-bit number with the entry and the product with the power itself.
-/
namespace C4.FF

/-- The power of five `i - 342`, scaled to between 2^127 and 2^128, is `pNum i / pDen i`. -/
def pNum (i : Nat) : Nat := if i < 342 then 2 ^ (128 + Nat.log2 (5 ^ (342 - i))) else 5 ^ (i - 342) * 2 ^ 127
def pDen (i : Nat) : Nat := if i < 342 then 5 ^ (342 - i) else 2 ^ Nat.log2 (5 ^ (i - 342))

/-- Check of one row of the table. -/
def rowOk (i hi lo P Q P' Q' : Nat) : Bool :=
  let T := hi * 2 ^ 64 + lo
  let n := pNum i
  let d := pDen i
  decide (hi < 2 ^ 64) && decide (lo < 2 ^ 64) && decide (2 ^ 127 ≤ T) && decide (2 ^ 127 * d ≤ n) && decide (n < 2 ^ 128 * d) &&
  (if i < 342 then decide (217706 * (342 - i) ≤ 65536 * (Nat.log2 (5 ^ (342 - i)) + 1 + (342 - i))) &&
      decide (65536 * (Nat.log2 (5 ^ (342 - i)) + (342 - i)) < 217706 * (342 - i))
    else decide (65536 * (Nat.log2 (5 ^ (i - 342)) + (i - 342)) ≤ 217706 * (i - 342)) &&
      decide (217706 * (i - 342) < 65536 * (Nat.log2 (5 ^ (i - 342)) + (i - 342) + 1))) &&
  (decide (T * d = n) ||
    (decide (T * d ≤ n) && decide (n < (T + 1) * d) && decide (P * 2 ^ 137 ≤ T * Q) && decide (n * Q' < P' * 2 ^ 137 * d)
      && decide (P' * Q = P * Q' + 1) && decide (2 ^ 64 ≤ Q + Q')) ||
    (decide (n < T * d) && decide (T * d < n + d) && decide (1 ≤ lo) && decide (P * 2 ^ 137 * d ≤ n * Q) && decide (T * Q' < P' * 2 ^ 137)
      && decide (P' * Q = P * Q' + 1) && decide (2 ^ 64 ≤ Q + Q')))

/-- Check of all rows from row `i` on. -/
def rowsOk : Nat → List Nat → List Nat → Bool
  | i, hi :: lo :: t, P :: Q :: P' :: Q' :: c => rowOk i hi lo P Q P' Q' && rowsOk (i + 1) t c
  | _, [], [] => true
  | _, _, _ => false

set_option maxRecDepth 100000 in
theorem rows_ok : rowsOk 0 powerOfFive128 certs = true := by decide +kernel

theorem rowsOk_at : ∀ (i : Nat) (t c : List Nat), rowsOk i t c = true → ∀ k, 2 * k < t.length →
    ∃ P Q P' Q', rowOk (i + k) (t.getD (2 * k) 0) (t.getD (2 * k + 1) 0) P Q P' Q' = true
  | i, t, c, h, k, hk => by
    unfold rowsOk at h
    split at h
    · rename_i hi lo t P Q P' Q' c
      rw [Bool.and_eq_true] at h
      match k with
      | 0 => exact ⟨P, Q, P', Q', by simpa using h.1⟩
      | k + 1 =>
        have := rowsOk_at (i + 1) t c h.2 k (by simp at hk; omega)
        have e : i + 1 + k = i + (k + 1) := by omega
        rw [e] at this
        simpa [Nat.mul_add] using this
    · simp at hk
    · simp at h
  termination_by _ t => t.length

theorem table_length : powerOfFive128.length = 1302 := by decide +kernel

/-- There is no fraction with a denominator below 2^64 between two neighbouring fractions whose denominators sum up to at least 2^64. -/
theorem no_fraction {P Q P' Q' w m : Nat} (h : P' * Q = P * Q' + 1) (hs : 2 ^ 64 ≤ Q + Q') (hw : w < 2 ^ 64)
    (h1 : P * w < m * Q) (h2 : m * Q' < P' * w) : False := by
  have e : w = Q * (P' * w) - Q' * (P * w) := by
    have : Q * (P' * w) = Q' * (P * w) + w := by
      calc Q * (P' * w) = (P' * Q) * w := by ring
        _ = (P * Q' + 1) * w := by rw [h]
        _ = Q' * (P * w) + w := by ring
    omega
  have e2 : Q * (P' * w) ≥ Q * (m * Q' + 1) := Nat.mul_le_mul_left _ h2
  have e3 : Q' * (P * w + 1) ≤ Q' * (m * Q) := Nat.mul_le_mul_left _ h1
  have e4 : Q' * (m * Q) = Q * (m * Q') := by ring
  have : Q * (P' * w) = Q' * (P * w) + w := by
      calc Q * (P' * w) = (P' * Q) * w := by ring
        _ = (P * Q' + 1) * w := by rw [h]
        _ = Q' * (P * w) + w := by ring
  rw [Nat.mul_add] at e2 e3
  omega

/-- What is known about the row of the power `q`. -/
structure Row (q : Int) (hi lo n d : Nat) : Prop where
  ehi : powerOfFive128.getD (2 * (q - -342).toNat) 0 = hi
  elo : powerOfFive128.getD (2 * (q - -342).toNat + 1) 0 = lo
  hi64 : hi < 2 ^ 64
  lo64 : lo < 2 ^ 64
  norm : 2 ^ 127 ≤ hi * 2 ^ 64 + lo
  en : n = pNum (q - -342).toNat
  ed : d = pDen (q - -342).toNat
  dpos : 0 < d
  n1 : 2 ^ 127 * d ≤ n
  n2 : n < 2 ^ 128 * d
  pow10 : (10 : ℚ) ^ q = (n : ℚ) / d * 2 ^ (power q - 190)
  kind : (hi * 2 ^ 64 + lo) * d = n ∨
    ((hi * 2 ^ 64 + lo) * d ≤ n ∧ n < (hi * 2 ^ 64 + lo + 1) * d ∧
      ∀ w m, w < 2 ^ 64 → (hi * 2 ^ 64 + lo) * w < m * 2 ^ 137 → m * 2 ^ 137 * d ≤ n * w → False) ∨
    (n < (hi * 2 ^ 64 + lo) * d ∧ (hi * 2 ^ 64 + lo) * d < n + d ∧ 1 ≤ lo ∧
      ∀ w m, w < 2 ^ 64 → n * w < m * 2 ^ 137 * d → m * 2 ^ 137 ≤ (hi * 2 ^ 64 + lo) * w → False)

theorem pow10_neg (j b : Nat) : ((10 : ℚ) ^ (-(j : ℤ))) =
    ((2 ^ (128 + b) : ℕ) : ℚ) / ((5 ^ j : ℕ) : ℚ) * 2 ^ ((-((b : ℤ) + 1 + j) + 63) - 190) := by
  have e : (-((b : ℤ) + 1 + j) + 63) - 190 = -((128 + b + j : ℕ) : ℤ) := by push_cast; ring
  rw [e, zpow_neg, zpow_neg, zpow_natCast, zpow_natCast]
  push_cast
  rw [show (10 : ℚ) = 5 * 2 by norm_num, mul_pow, pow_add 2 (128 + b) j]
  field_simp

theorem pow10_pos (k b : Nat) : ((10 : ℚ) ^ (k : ℤ)) =
    ((5 ^ k * 2 ^ 127 : ℕ) : ℚ) / ((2 ^ b : ℕ) : ℚ) * 2 ^ (((b : ℤ) + k + 63) - 190) := by
  have e : ((b : ℤ) + k + 63) - 190 = ((b + k : ℕ) : ℤ) - (127 : ℕ) := by push_cast; ring
  rw [e, zpow_sub₀ (by norm_num), zpow_natCast, zpow_natCast, zpow_natCast]
  push_cast
  rw [show (10 : ℚ) = 5 * 2 by norm_num, mul_pow, pow_add 2 b k]
  field_simp
  norm_num

theorem row (q : Int) (h1 : -342 ≤ q) (h2 : q ≤ 308) : ∃ hi lo n d, Row q hi lo n d := by
  obtain ⟨i, hi⟩ : ∃ i, (q - -342).toNat = i := ⟨_, rfl⟩
  have hq : q = (i : Int) - 342 := by omega
  have hi2 : i < 651 := by omega
  obtain ⟨P, Q, P', Q', hr⟩ := rowsOk_at 0 _ _ rows_ok i (by rw [table_length]; omega)
  obtain ⟨hiV, eh⟩ : ∃ v, powerOfFive128.getD (2 * i) 0 = v := ⟨_, rfl⟩
  obtain ⟨loV, el⟩ : ∃ v, powerOfFive128.getD (2 * i + 1) 0 = v := ⟨_, rfl⟩
  rw [Nat.zero_add, eh, el] at hr
  unfold rowOk at hr
  simp only [Bool.and_eq_true, Bool.or_eq_true, decide_eq_true_eq] at hr
  obtain ⟨⟨⟨⟨⟨⟨a1, a2⟩, a3⟩, a4⟩, a5⟩, a6⟩, a7⟩ := hr
  have hd : 0 < pDen i := by unfold pDen; split <;> positivity
  refine ⟨hiV, loV, pNum i, pDen i,
    ⟨by rw [hi, eh], by rw [hi, el], a1, a2, a3, by rw [hi], by rw [hi], hd, a4, a5, ?_, ?_⟩⟩
  · unfold pNum pDen
    by_cases hc : i < 342
    · rw [if_pos hc] at a6
      simp only [Bool.and_eq_true, decide_eq_true_eq] at a6
      rw [if_pos hc, if_pos hc]
      obtain ⟨j, hj⟩ : ∃ j, 342 - i = j := ⟨_, rfl⟩
      have hqj : q = -(j : ℤ) := by omega
      rw [hj] at a6 ⊢
      generalize Nat.log2 (5 ^ j) = b at *
      have hpw : power q = -((b : ℤ) + 1 + j) + 63 := by
        unfold power
        rw [hqj]
        omega
      rw [hpw, hqj]
      exact pow10_neg j b
    · rw [if_neg hc] at a6
      simp only [Bool.and_eq_true, decide_eq_true_eq] at a6
      rw [if_neg hc, if_neg hc]
      obtain ⟨j, hj⟩ : ∃ j, i - 342 = j := ⟨_, rfl⟩
      have hqj : q = (j : ℤ) := by omega
      rw [hj] at a6 ⊢
      generalize Nat.log2 (5 ^ j) = b at *
      have hpw : power q = (b : ℤ) + j + 63 := by
        unfold power
        rw [hqj]
        omega
      rw [hpw, hqj]
      exact pow10_pos j b
  · generalize pNum i = n at *
    generalize pDen i = d at *
    obtain ⟨T, hT⟩ : ∃ T, hiV * 2 ^ 64 + loV = T := ⟨_, rfl⟩
    rw [hT] at a7 ⊢
    rcases a7 with (a7 | ⟨⟨⟨⟨⟨b1, b2⟩, b3⟩, b4⟩, b5⟩, b6⟩) | ⟨⟨⟨⟨⟨⟨b1, b2⟩, b3⟩, b4⟩, b5⟩, b6⟩, b7⟩
    · exact Or.inl a7
    · refine Or.inr (Or.inl ⟨b1, b2, fun w m hw c1 c2 => no_fraction b5 b6 hw (m := m) ?_ ?_⟩)
      · -- P/Q ≤ T/2^137 < m/w
        have h3 : P * 2 ^ 137 * w ≤ T * Q * w := Nat.mul_le_mul_right w b3
        have hQ : 0 < Q := by
          rcases Nat.eq_zero_or_pos Q with h | h
          · rw [h] at b5; omega
          · exact h
        have h4 : T * w * Q < m * 2 ^ 137 * Q := Nat.mul_lt_mul_of_pos_right c1 hQ
        have h5 : 2 ^ 137 * (P * w) < 2 ^ 137 * (m * Q) := by
          calc 2 ^ 137 * (P * w) = P * 2 ^ 137 * w := by ring
            _ ≤ T * Q * w := h3
            _ = T * w * Q := by ring
            _ < m * 2 ^ 137 * Q := h4
            _ = 2 ^ 137 * (m * Q) := by ring
        exact Nat.lt_of_mul_lt_mul_left h5
      · have hw0 : 0 < w := by
          rcases Nat.eq_zero_or_pos w with h | h
          · rw [h] at c1 c2
            rw [Nat.mul_zero] at c1 c2
            exact absurd (Nat.mul_pos c1 hd) (by omega)
          · exact h
        have h3 : n * Q' * w < P' * 2 ^ 137 * d * w := Nat.mul_lt_mul_of_pos_right b4 hw0
        have h4 : m * 2 ^ 137 * d * Q' ≤ n * w * Q' := Nat.mul_le_mul_right Q' c2
        have h5 : (2 ^ 137 * d) * (m * Q') < (2 ^ 137 * d) * (P' * w) := by
          calc (2 ^ 137 * d) * (m * Q') = m * 2 ^ 137 * d * Q' := by ring
            _ ≤ n * w * Q' := h4
            _ = n * Q' * w := by ring
            _ < P' * 2 ^ 137 * d * w := h3
            _ = (2 ^ 137 * d) * (P' * w) := by ring
        exact Nat.lt_of_mul_lt_mul_left h5
    · refine Or.inr (Or.inr ⟨b1, b2, b3, fun w m hw c1 c2 => no_fraction b6 b7 hw (m := m) ?_ ?_⟩)
      · have h3 : P * 2 ^ 137 * d * w ≤ n * Q * w := Nat.mul_le_mul_right w b4
        have hQ : 0 < Q := by
          rcases Nat.eq_zero_or_pos Q with h | h
          · rw [h] at b6; omega
          · exact h
        have h4 : n * w * Q < m * 2 ^ 137 * d * Q := Nat.mul_lt_mul_of_pos_right c1 hQ
        have h5 : (2 ^ 137 * d) * (P * w) < (2 ^ 137 * d) * (m * Q) := by
          calc (2 ^ 137 * d) * (P * w) = P * 2 ^ 137 * d * w := by ring
            _ ≤ n * Q * w := h3
            _ = n * w * Q := by ring
            _ < m * 2 ^ 137 * d * Q := h4
            _ = (2 ^ 137 * d) * (m * Q) := by ring
        exact Nat.lt_of_mul_lt_mul_left h5
      · have hm0 : 0 < m := by
          rcases Nat.eq_zero_or_pos m with h | h
          · rw [h] at c1; simp at c1
          · exact h
        have hw0 : 0 < w := by
          rcases Nat.eq_zero_or_pos w with h | h
          · rw [h] at c2; simp at c2; omega
          · exact h
        have h3 : T * Q' * w < P' * 2 ^ 137 * w := Nat.mul_lt_mul_of_pos_right b5 hw0
        have h4 : m * 2 ^ 137 * Q' ≤ T * w * Q' := Nat.mul_le_mul_right Q' c2
        have h5 : 2 ^ 137 * (m * Q') < 2 ^ 137 * (P' * w) := by
          calc 2 ^ 137 * (m * Q') = m * 2 ^ 137 * Q' := by ring
            _ ≤ T * w * Q' := h4
            _ = T * Q' * w := by ring
            _ < P' * 2 ^ 137 * w := h3
            _ = 2 ^ 137 * (P' * w) := by ring
        exact Nat.lt_of_mul_lt_mul_left h5

end C4.FF
