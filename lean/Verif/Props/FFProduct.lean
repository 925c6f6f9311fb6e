import Verif.Props.FFTable
import Verif.Props.FFBits
/-
The approximate product of fast_float: the bits that are used of it are those of the exact product.
-/
namespace C4.FF

theorem mask_eq (t : Nat) (h : 0 < t) (h' : t ≤ 64) :
    (if 64 - t < 64 then 0xFFFFFFFFFFFFFFFF >>> (64 - t) else 0xFFFFFFFFFFFFFFFF) = 2 ^ t - 1 := by
  rw [if_pos (by omega), Nat.shiftRight_eq_div_pow]
  have hp := Nat.two_pow_pos (64 - t)
  have e : 2 ^ t * 2 ^ (64 - t) = 2 ^ 64 := by rw [← Nat.pow_add]; congr 1; omega
  have : (0xFFFFFFFFFFFFFFFF : Nat) = (2 ^ t - 1) * 2 ^ (64 - t) + (2 ^ (64 - t) - 1) := by
    rw [Nat.sub_mul, e]
    have : 2 ^ (64 - t) ≤ 2 ^ 64 := Nat.pow_le_pow_right (by omega) (by omega)
    omega
  rw [this, Nat.add_comm, Nat.mul_comm, Nat.add_mul_div_left _ _ hp, Nat.div_eq_of_lt (by omega)]
  omega

/-- The two ways the product is computed. -/
theorem product_cases (t : Nat) (ht : 0 < t) (ht' : t ≤ 64) {q : Int} {hi lo n d : Nat} (R : Row q hi lo n d) (w : Nat) (hw : w < 2 ^ 64) :
    let p := computeProductApproximation (64 - t) q w
    (w * hi = p.2 * 2 ^ 64 + p.1 ∧ p.1 < 2 ^ 64 ∧ p.2 % 2 ^ t ≠ 2 ^ t - 1) ∨
    (w * (hi * 2 ^ 64 + lo) / 2 ^ 64 = p.2 * 2 ^ 64 + p.1 ∧ p.1 < 2 ^ 64 ∧ (w * hi / 2 ^ 64) % 2 ^ t = 2 ^ t - 1) := by
  intro p
  have hp : p = computeProductApproximation (64 - t) q w := rfl
  unfold computeProductApproximation at hp
  simp only [R.ehi, R.elo, mask_eq t ht ht', fullMultiplication, Nat.and_two_pow_sub_one_eq_mod] at hp
  have hdm := Nat.div_add_mod (w * hi) (2 ^ 64)
  have hml := Nat.mod_lt (w * hi) (Nat.two_pow_pos 64)
  split at hp
  · rename_i hm
    right
    have key : w * (hi * 2 ^ 64 + lo) / 2 ^ 64 = w * hi + w * lo / 2 ^ 64 := by
      rw [Nat.mul_add, ← Nat.mul_assoc, Nat.add_comm, Nat.add_mul_div_right _ _ (Nat.two_pow_pos 64), Nat.add_comm]
    have h2 : w * lo / 2 ^ 64 < 2 ^ 64 := by
      rw [Nat.div_lt_iff_lt_mul (Nat.two_pow_pos 64)]
      have := R.lo64
      nlinarith
    have hh : w * hi / 2 ^ 64 < 2 ^ 64 - 1 := by
      rw [Nat.div_lt_iff_lt_mul (Nat.two_pow_pos 64)]
      have h64 := R.hi64
      have : w * hi ≤ (2 ^ 64 - 1) * (2 ^ 64 - 1) := Nat.mul_le_mul (by omega) (by omega)
      norm_num at this ⊢
      omega
    rw [key]
    generalize w * lo / 2 ^ 64 = s at *
    generalize w * hi / 2 ^ 64 = H at *
    generalize w * hi % 2 ^ 64 = L at *
    generalize w * hi = X at *
    clear R key
    split at hp
    · rw [hp]
      refine ⟨?_, ?_, hm⟩ <;> dsimp only <;> omega
    · rw [hp]
      refine ⟨?_, ?_, hm⟩ <;> dsimp only <;> omega
  · rename_i hm
    left
    rw [hp]
    refine ⟨?_, hml, hm⟩
    dsimp only
    omega

theorem div_pow_add (a t : Nat) : a / 2 ^ t * 2 ^ t ≤ a ∧ a < (a / 2 ^ t + 1) * 2 ^ t := by
  have h := Nat.div_add_mod a (2 ^ t)
  have h' := Nat.mod_lt a (Nat.two_pow_pos t)
  have e1 : a / 2 ^ t * 2 ^ t = 2 ^ t * (a / 2 ^ t) := Nat.mul_comm _ _
  have e2 : (a / 2 ^ t + 1) * 2 ^ t = 2 ^ t * (a / 2 ^ t) + 2 ^ t := by ring
  constructor <;> omega

/-- The high word of the product, without its last `t` bits, is that of the exact product (Mushtak and Lemire). -/
theorem product_floor (t : Nat) (ht : 9 ≤ t) (ht' : t ≤ 62) {q : Int} {hi lo n d : Nat} (R : Row q hi lo n d) (w : Nat)
    (hw : w < 2 ^ 64) :
    (computeProductApproximation (64 - t) q w).2 / 2 ^ t * 2 ^ (128 + t) * d ≤ w * n ∧
    w * n < ((computeProductApproximation (64 - t) q w).2 / 2 ^ t + 1) * 2 ^ (128 + t) * d := by
  have hc := product_cases t (by omega) (by omega) R w hw
  simp only at hc
  generalize (computeProductApproximation (64 - t) q w).2 = H at *
  generalize (computeProductApproximation (64 - t) q w).1 = L at *
  obtain ⟨T, hT⟩ : ∃ T, hi * 2 ^ 64 + lo = T := ⟨_, rfl⟩
  have hkind := R.kind
  have hd := R.dpos
  have hlo := R.lo64
  rw [hT] at hkind
  rw [hT] at hc
  have e128 : 2 ^ (128 + t) = 2 ^ 128 * 2 ^ t := Nat.pow_add _ _ _
  have e137 : 2 ^ (128 + t) = 2 ^ (t - 9) * 2 ^ 137 := by rw [← Nat.pow_add]; congr 1; omega
  obtain ⟨f1, f2⟩ := div_pow_add H t
  rcases hc with ⟨hp, hL, hm⟩ | ⟨hp, hL, hm⟩
  · -- first product only
    have lower : w * hi * 2 ^ 64 * d ≤ w * n := by
      have : hi * 2 ^ 64 * d ≤ n := by
        rcases hkind with h | ⟨h, _⟩ | ⟨_, h, hl, _⟩
        · rw [← h]; exact Nat.mul_le_mul_right _ (by omega)
        · exact le_trans (Nat.mul_le_mul_right _ (by omega)) h
        · have e : T * d = hi * 2 ^ 64 * d + lo * d := by rw [← hT]; ring
          have : 1 * d ≤ lo * d := Nat.mul_le_mul_right _ hl
          omega
      calc w * hi * 2 ^ 64 * d = w * (hi * 2 ^ 64 * d) := by ring
        _ ≤ w * n := Nat.mul_le_mul_left _ this
    have upper : w * n ≤ w * ((hi + 1) * 2 ^ 64 * d) := by
      apply Nat.mul_le_mul_left
      have : T + 1 ≤ (hi + 1) * 2 ^ 64 := by omega
      rcases hkind with h | ⟨_, h, _⟩ | ⟨h, _⟩
      · rw [← h]; exact Nat.mul_le_mul_right _ (by omega)
      · exact le_trans h.le (Nat.mul_le_mul_right _ this)
      · exact le_trans h.le (Nat.mul_le_mul_right _ (by omega))
    constructor
    · calc H / 2 ^ t * 2 ^ (128 + t) * d = (H / 2 ^ t * 2 ^ t) * 2 ^ 128 * d := by rw [e128]; ring
        _ ≤ H * 2 ^ 128 * d := Nat.mul_le_mul_right _ (Nat.mul_le_mul_right _ f1)
        _ = (H * 2 ^ 64) * 2 ^ 64 * d := by ring
        _ ≤ (w * hi) * 2 ^ 64 * d := Nat.mul_le_mul_right _ (Nat.mul_le_mul_right _ (by omega))
        _ ≤ w * n := lower
    · have g1 : w * (hi + 1) < (H + 2) * 2 ^ 64 := by rw [Nat.mul_add]; omega
      have g2 : H + 2 ≤ (H / 2 ^ t + 1) * 2 ^ t := by
        have h := Nat.div_add_mod H (2 ^ t)
        have h' := Nat.mod_lt H (Nat.two_pow_pos t)
        have e2 : (H / 2 ^ t + 1) * 2 ^ t = 2 ^ t * (H / 2 ^ t) + 2 ^ t := by ring
        omega
      calc w * n ≤ w * ((hi + 1) * 2 ^ 64 * d) := upper
        _ = (w * (hi + 1)) * (2 ^ 64 * d) := by ring
        _ < ((H + 2) * 2 ^ 64) * (2 ^ 64 * d) := Nat.mul_lt_mul_of_pos_right g1 (by positivity)
        _ = (H + 2) * (2 ^ 128 * d) := by ring
        _ ≤ ((H / 2 ^ t + 1) * 2 ^ t) * (2 ^ 128 * d) := Nat.mul_le_mul_right _ g2
        _ = (H / 2 ^ t + 1) * 2 ^ (128 + t) * d := by rw [e128]; ring
  · -- both products
    have wT := div_pow_add (w * T) 64
    rw [hp] at wT
    have u1 : H / 2 ^ t * 2 ^ (128 + t) ≤ w * T := by
      calc H / 2 ^ t * 2 ^ (128 + t) = (H / 2 ^ t * 2 ^ t) * 2 ^ 128 := by rw [e128]; ring
        _ ≤ H * 2 ^ 128 := Nat.mul_le_mul_right _ f1
        _ = (H * 2 ^ 64) * 2 ^ 64 := by ring
        _ ≤ (H * 2 ^ 64 + L) * 2 ^ 64 := Nat.mul_le_mul_right _ (by omega)
        _ ≤ w * T := wT.1
    have u2 : w * T < (H / 2 ^ t + 1) * 2 ^ (128 + t) := by
      calc w * T < (H * 2 ^ 64 + L + 1) * 2 ^ 64 := wT.2
        _ ≤ ((H + 1) * 2 ^ 64) * 2 ^ 64 := Nat.mul_le_mul_right _ (by omega)
        _ = (H + 1) * 2 ^ 128 := by ring
        _ ≤ ((H / 2 ^ t + 1) * 2 ^ t) * 2 ^ 128 := Nat.mul_le_mul_right _ f2
        _ = (H / 2 ^ t + 1) * 2 ^ (128 + t) := by rw [e128]; ring
    generalize H / 2 ^ t = K at *
    rcases hkind with h | ⟨h1, h2, hno⟩ | ⟨h1, h2, hl, hno⟩
    · rw [← h]
      constructor
      · calc K * 2 ^ (128 + t) * d ≤ w * T * d := Nat.mul_le_mul_right _ u1
          _ = w * (T * d) := by ring
      · calc w * (T * d) = w * T * d := by ring
          _ < (K + 1) * 2 ^ (128 + t) * d := Nat.mul_lt_mul_of_pos_right u2 hd
    · constructor
      · calc K * 2 ^ (128 + t) * d ≤ w * T * d := Nat.mul_le_mul_right _ u1
          _ = w * (T * d) := by ring
          _ ≤ w * n := Nat.mul_le_mul_left _ h1
      · by_contra hcon
        apply hno w ((K + 1) * 2 ^ (t - 9)) hw
        · calc T * w = w * T := Nat.mul_comm _ _
            _ < (K + 1) * 2 ^ (128 + t) := u2
            _ = (K + 1) * 2 ^ (t - 9) * 2 ^ 137 := by rw [e137]; ring
        · calc (K + 1) * 2 ^ (t - 9) * 2 ^ 137 * d = (K + 1) * 2 ^ (128 + t) * d := by rw [e137]; ring
            _ ≤ w * n := by omega
            _ = n * w := Nat.mul_comm _ _
    · constructor
      · by_contra hcon
        apply hno w (K * 2 ^ (t - 9)) hw
        · calc n * w = w * n := Nat.mul_comm _ _
            _ < K * 2 ^ (128 + t) * d := by omega
            _ = K * 2 ^ (t - 9) * 2 ^ 137 * d := by rw [e137]; ring
        · calc K * 2 ^ (t - 9) * 2 ^ 137 = K * 2 ^ (128 + t) := by rw [e137]; ring
            _ ≤ w * T := u1
            _ = T * w := Nat.mul_comm _ _
      · calc w * n ≤ w * (T * d) := Nat.mul_le_mul_left _ h1.le
          _ = w * T * d := by ring
          _ < (K + 1) * 2 ^ (128 + t) * d := Nat.mul_lt_mul_of_pos_right u2 hd

/-- The high word is normalized up to one bit. -/
theorem product_range (t : Nat) (ht : 9 ≤ t) (ht' : t ≤ 62) {q : Int} {hi lo n d : Nat} (R : Row q hi lo n d) (w : Nat)
    (hw : w < 2 ^ 64) (hw' : 2 ^ 63 ≤ w) :
    2 ^ 62 ≤ (computeProductApproximation (64 - t) q w).2 ∧ (computeProductApproximation (64 - t) q w).2 < 2 ^ 64 := by
  have hc := product_cases t (by omega) (by omega) R w hw
  simp only at hc
  generalize (computeProductApproximation (64 - t) q w).2 = H at *
  generalize (computeProductApproximation (64 - t) q w).1 = L at *
  have h64 := R.hi64
  have hlo := R.lo64
  have hnorm := R.norm
  have hhi : 2 ^ 63 ≤ hi := by omega
  rcases hc with ⟨hp, hL, -⟩ | ⟨hp, hL, -⟩
  · have l : 2 ^ 63 * 2 ^ 63 ≤ w * hi := Nat.mul_le_mul hw' hhi
    have u : w * hi ≤ (2 ^ 64 - 1) * (2 ^ 64 - 1) := Nat.mul_le_mul (by omega) (by omega)
    generalize w * hi = X at *
    norm_num at l u
    constructor <;> omega
  · obtain ⟨T, hT⟩ : ∃ T, hi * 2 ^ 64 + lo = T := ⟨_, rfl⟩
    rw [hT] at hp hnorm
    have l : 2 ^ 63 * 2 ^ 127 ≤ w * T := Nat.mul_le_mul hw' hnorm
    have u : w * T ≤ (2 ^ 64 - 1) * (2 ^ 128 - 1) := Nat.mul_le_mul (by omega) (by omega)
    generalize w * T = X at *
    norm_num at l u
    constructor <;> omega

end C4.FF
