import Verif.Props.FFProduct
import Mathlib.Data.Nat.Prime.Basic
import Mathlib.Algebra.Group.Nat.Even
import Mathlib.Tactic.IntervalCases
/-
When a product of a number and a power of ten lies exactly between two floating point numbers, and how fast_float notices.
-/
namespace C4.FF

theorem coprime_5_2 (a b : Nat) : Nat.Coprime (5 ^ a) (2 ^ b) := Nat.Coprime.pow a b (by decide)

/-- The rows of the powers 0 to 23 are exact and have an empty low word. -/
theorem small_pos : ∀ k < 24, powerOfFive128.getD (2 * (342 + k) + 1) 0 = 0 ∧ powerOfFive128.getD (2 * (342 + k)) 0 % 2 = 0 ∧
    powerOfFive128.getD (2 * (342 + k)) 0 * 2 ^ 64 * pDen (342 + k) = pNum (342 + k) := by decide +kernel

/-- For the powers -17 to -1: the inverse of the high word, modulo 2^73 and up to a power of two, and the exponent of that power of two. -/
def inverses : List (Nat × Nat) := [(5857556903971960749561, 0),
  (7677374899369545787091, 0),
  (2023941374682551096169, 0),
  (6978018582115329709807, 0),
  (6173423653807564516379, 0),
  (5438103894683668290787, 0),
  (8678618937442487462527, 1),
  (2666441970882205667615, 1),
  (5373165339151210392103, 0),
  (5773228523628470303807, 2),
  (550217898196848789071, 2),
  (5131448983948034702493, 0),
  (6948974513652742179723, 0),
  (6777554990888349610371, 0),
  (8167766518840865956339, 0),
  (3787731449801694598477, 1),
  (9352499245370742669307, 2)]

/-- The rows of the powers -17 to -1 are rounded up, and a multiple of the high word that ends in 73 bits with value 0 or 1 has a factor of 2^64
or more. -/
theorem small_neg : ∀ k < 17, let hi := powerOfFive128.getD (2 * (325 + k)) 0
    let T := hi * 2 ^ 64 + powerOfFive128.getD (2 * (325 + k) + 1) 0
    let (v, a) := inverses.getD k (0, 0)
    pNum (325 + k) < T * pDen (325 + k) ∧ hi * v % 2 ^ 73 = 2 ^ a ∧ a ≤ 8 ∧ (hi % 2 = 0 ∨ 2 ^ (64 + a) ≤ v) ∧ v < 2 ^ 73 := by
  decide +kernel

/-- The constants of a format are those of the IEEE format, and the bounds chosen in it are wide enough. -/
structure FmtOk (f : Fmt) (F : Spec.Ieee) : Prop where
  frac : F.fracBits = f.mantissaExplicitBits
  bias : F.bias = -f.minimumExponent
  inf : f.infinitePower = ((2 ^ F.expBits - 1 : Nat) : Int)
  infb : f.infinitePower = 2 * F.bias + 1
  sign : f.signIndex = F.fracBits + F.expBits
  mb1 : 1 ≤ f.mantissaExplicitBits
  mb2 : f.mantissaExplicitBits ≤ 52
  emin : f.minimumExponent ≤ -127
  emin' : -1023 ≤ f.minimumExponent
  small : -342 ≤ f.smallestPowerOfTen ∧ f.smallestPowerOfTen ≤ 0
  large : f.largestPowerOfTen ≤ 308 ∧ 0 ≤ f.largestPowerOfTen
  rmax : 0 ≤ f.maxExponentRoundToEven ∧ f.maxExponentRoundToEven ≤ 23 ∧ 2 ^ (f.mantissaExplicitBits + 2) ≤ 5 ^ (f.maxExponentRoundToEven + 1).toNat
  rmin : f.minExponentRoundToEven ≤ 0 ∧ -17 ≤ f.minExponentRoundToEven ∧ 2 ^ (63 - f.mantissaExplicitBits) ≤ 5 ^ (1 - f.minExponentRoundToEven).toNat
  zero : 2 ^ (64 + f.mantissaExplicitBits + (-f.minimumExponent).toNat) ≤ 10 ^ (1 - f.smallestPowerOfTen).toNat
  huge : 2 ^ (F.bias + 1).toNat ≤ 10 ^ (f.largestPowerOfTen + 1).toNat

theorem dbl_ok : FmtOk dbl Spec.binary64 where
  frac := rfl
  bias := by decide
  inf := by decide
  infb := by decide
  sign := rfl
  mb1 := by decide
  mb2 := by decide
  emin := by decide
  emin' := by decide
  small := by decide
  large := by decide
  rmax := by decide +kernel
  rmin := by decide +kernel
  zero := by decide +kernel
  huge := by decide +kernel

theorem flt_ok : FmtOk flt Spec.binary32 where
  frac := rfl
  bias := by decide
  inf := by decide
  infb := by decide
  sign := rfl
  mb1 := by decide
  mb2 := by decide
  emin := by decide
  emin' := by decide
  small := by decide
  large := by decide
  rmax := by decide +kernel
  rmin := by decide +kernel
  zero := by decide +kernel
  huge := by decide +kernel

/-- A row with a power that is not negative. -/
theorem Row.pos {q : Int} {hi lo n d : Nat} (R : Row q hi lo n d) (h : 0 ≤ q) : ∃ b, n = 5 ^ q.toNat * 2 ^ 127 ∧ d = 2 ^ b := by
  have e : (q - -342).toNat = 342 + q.toNat := by omega
  have h1 := R.en
  have h2 := R.ed
  unfold pNum at h1
  unfold pDen at h2
  rw [e] at h1 h2
  rw [if_neg (by omega)] at h1 h2
  rw [show 342 + q.toNat - 342 = q.toNat by omega] at h1 h2
  exact ⟨_, h1, h2⟩

/-- A row with a negative power. -/
theorem Row.neg {q : Int} {hi lo n d : Nat} (R : Row q hi lo n d) (h : q < 0) (h' : -342 ≤ q) : ∃ b, n = 2 ^ (128 + b) ∧ d = 5 ^ (-q).toNat := by
  have h1 := R.en
  have h2 := R.ed
  unfold pNum at h1
  unfold pDen at h2
  rw [if_pos (by omega)] at h1 h2
  rw [show 342 - (q - -342).toNat = (-q).toNat by omega] at h1 h2
  exact ⟨_, h1, h2⟩

theorem Row.exact {q : Int} {hi lo n d : Nat} (R : Row q hi lo n d) (h : 0 ≤ q) (h' : q ≤ 23) :
    lo = 0 ∧ hi % 2 = 0 ∧ hi * 2 ^ 64 * d = n := by
  have e : (q - -342).toNat = 342 + q.toNat := by omega
  have h1 := R.ehi
  have h2 := R.elo
  have h3 := R.en
  have h4 := R.ed
  rw [e] at h1 h2 h3 h4
  have := small_pos q.toNat (by omega)
  rw [h1, h2, ← h3, ← h4] at this
  exact this

theorem Row.up {q : Int} {hi lo n d : Nat} (R : Row q hi lo n d) (h : q < 0) (h' : -17 ≤ q) :
    n < (hi * 2 ^ 64 + lo) * d ∧ ∃ v a, hi * v % 2 ^ 73 = 2 ^ a ∧ a ≤ 8 ∧ (hi % 2 = 0 ∨ 2 ^ (64 + a) ≤ v) ∧ v < 2 ^ 73 := by
  have e : (q - -342).toNat = 325 + (q + 17).toNat := by omega
  have h1 := R.ehi
  have h2 := R.elo
  have h3 := R.en
  have h4 := R.ed
  rw [e] at h1 h2 h3 h4
  have := small_neg (q + 17).toNat (by omega)
  simp only [h1, h2, ← h3, ← h4] at this
  exact ⟨this.1, _, _, this.2⟩

/-- A multiple of the high word of a small negative power cannot look like a number between two others. -/
theorem no_false_tie {hi v a w : Nat} (h1 : hi * v % 2 ^ 73 = 2 ^ a) (ha : a ≤ 8) (h2 : hi % 2 = 0 ∨ 2 ^ (64 + a) ≤ v) (hv : v < 2 ^ 73)
    (hw : w < 2 ^ 64) (hw0 : 0 < w) {L : Nat} (hL : L ≤ 1) (hm : w * hi % 2 ^ 73 = L) : False := by
  have hpa := Nat.two_pow_pos a
  have ea : (2 : Nat) ^ (64 + a) = 2 ^ 64 * 2 ^ a := Nat.pow_add _ _ _
  have hle : (2 : Nat) ^ a ≤ 2 ^ 8 := Nat.pow_le_pow_right (by omega) ha
  have key : w * 2 ^ a % 2 ^ 73 = L * v % 2 ^ 73 := by
    have e : w * hi * v % 2 ^ 73 = w * 2 ^ a % 2 ^ 73 := by
      rw [Nat.mul_assoc, ← Nat.mul_mod_mod, h1]
    rw [← e, ← hm, Nat.mod_mul_mod]
  have hlt : w * 2 ^ a < 2 ^ 64 * 2 ^ a := Nat.mul_lt_mul_of_pos_right hw hpa
  have hlt' : w * 2 ^ a < 2 ^ 73 := by
    calc w * 2 ^ a < 2 ^ 64 * 2 ^ a := hlt
      _ ≤ 2 ^ 64 * 2 ^ 8 := Nat.mul_le_mul_left _ hle
      _ < 2 ^ 73 := by norm_num
  rw [Nat.mod_eq_of_lt hlt'] at key
  have hpos : 0 < w * 2 ^ a := Nat.mul_pos hw0 hpa
  rcases Nat.eq_zero_or_pos L with h0 | h0
  · subst h0
    rw [Nat.zero_mul, Nat.zero_mod] at key
    omega
  · have hL1 : L = 1 := by omega
    subst hL1
    rw [Nat.one_mul, Nat.mod_eq_of_lt hv] at key
    rcases h2 with h2 | h2
    · have : w * hi % 2 = 0 := by rw [Nat.mul_mod, h2, Nat.mul_zero, Nat.zero_mod]
      omega
    · omega

/-- The test of fast_float for a product halfway between two numbers is exact. -/
theorem tie_iff {f : Fmt} {F : Spec.Ieee} (hok : FmtOk f F) {q : Int} {hi lo n d : Nat} (R : Row q hi lo n d) (hq1 : -342 ≤ q)
    {w H L s M t : Nat} (hw : w < 2 ^ 64) (hw0 : 0 < w) (ht : 9 ≤ t) (hst : t ≤ s)
    (hc : (w * hi = H * 2 ^ 64 + L ∧ L < 2 ^ 64 ∧ H % 2 ^ t ≠ 2 ^ t - 1) ∨
      (w * (hi * 2 ^ 64 + lo) / 2 ^ 64 = H * 2 ^ 64 + L ∧ L < 2 ^ 64 ∧ (w * hi / 2 ^ 64) % 2 ^ t = 2 ^ t - 1))
    (hM : M * 2 ^ s ≤ H) (hM1 : 2 ^ (f.mantissaExplicitBits + 1) ≤ M) (hM2 : M < 2 ^ (f.mantissaExplicitBits + 2)) (hodd : M % 2 = 1) :
    (L ≤ 1 ∧ q ≥ f.minExponentRoundToEven ∧ q ≤ f.maxExponentRoundToEven ∧ M * 2 ^ s = H) ↔ w * n = M * 2 ^ (128 + s) * d := by
  have hd := R.dpos
  have e128 : 2 ^ (128 + s) = 2 ^ 128 * 2 ^ s := Nat.pow_add _ _ _
  have hrmax := hok.rmax
  have hrmin := hok.rmin
  by_cases hq : 0 ≤ q
  · -- a power that is not negative
    have exactV : q ≤ 23 → w * n = (H * 2 ^ 64 + L) * 2 ^ 64 * d := by
      intro h23
      obtain ⟨hlo, -, hex⟩ := R.exact hq h23
      have e : w * hi = H * 2 ^ 64 + L := by
        rcases hc with ⟨h, -⟩ | ⟨h, -⟩
        · exact h
        · rw [hlo, Nat.add_zero, ← Nat.mul_assoc, Nat.mul_div_cancel _ (Nat.two_pow_pos 64)] at h
          exact h
      rw [← hex, ← e]; ring
    constructor
    · rintro ⟨hL, -, hmx, hH⟩
      have hv := exactV (by omega)
      obtain ⟨hlo, hev, hex⟩ := R.exact hq (by omega)
      have hL0 : L = 0 := by
        have e : w * hi = H * 2 ^ 64 + L := by
          rcases hc with ⟨h, -⟩ | ⟨h, -⟩
          · exact h
          · rw [hlo, Nat.add_zero, ← Nat.mul_assoc, Nat.mul_div_cancel _ (Nat.two_pow_pos 64)] at h
            exact h
        have : w * hi % 2 = 0 := by rw [Nat.mul_mod, hev, Nat.mul_zero, Nat.zero_mod]
        omega
      rw [hv, hL0, ← hH, e128]; ring
    · intro hv
      have hle : q ≤ f.maxExponentRoundToEven := by
        obtain ⟨b, hn, hdb⟩ := R.pos hq
        rw [hn, hdb] at hv
        have h1 : 5 ^ q.toNat ∣ M * 2 ^ (128 + s + b) := by
          rw [Nat.pow_add 2 (128 + s) b, ← Nat.mul_assoc, ← hv]
          exact ⟨w * 2 ^ 127, by ring⟩
        have h2 : 5 ^ q.toNat ∣ M := (coprime_5_2 _ _).dvd_of_dvd_mul_right h1
        have h3 := Nat.le_of_dvd (by omega) h2
        have h4 : 5 ^ q.toNat < 5 ^ (f.maxExponentRoundToEven + 1).toNat := by omega
        have h5 := (Nat.pow_lt_pow_iff_right (by norm_num)).mp h4
        omega
      have hv2 := exactV (by omega)
      rw [hv2, e128] at hv
      have h3 : H * 2 ^ 64 + L = M * 2 ^ s * 2 ^ 64 := by
        have : (H * 2 ^ 64 + L) * (2 ^ 64 * d) = (M * 2 ^ s * 2 ^ 64) * (2 ^ 64 * d) := by
          calc (H * 2 ^ 64 + L) * (2 ^ 64 * d) = (H * 2 ^ 64 + L) * 2 ^ 64 * d := by ring
            _ = M * (2 ^ 128 * 2 ^ s) * d := hv
            _ = (M * 2 ^ s * 2 ^ 64) * (2 ^ 64 * d) := by ring
        exact Nat.eq_of_mul_eq_mul_right (by positivity) this
      refine ⟨by omega, by omega, hle, by omega⟩
  · have hq' : q < 0 := by omega
    obtain ⟨b, hn, hdb⟩ := R.neg hq' hq1
    constructor
    · rintro ⟨hL, hmn, -, hH⟩
      obtain ⟨hup, v, a, c1, c2, c3, c4⟩ := R.up hq' (by omega)
      rcases hc with ⟨h, -, -⟩ | ⟨h, -, -⟩
      · exfalso
        refine no_false_tie c1 c2 c3 c4 hw hw0 hL ?_
        have e73 : M * 2 ^ s = M * 2 ^ (s - 9) * 2 ^ 9 := by rw [Nat.mul_assoc, ← Nat.pow_add]; congr 2; omega
        rw [h, ← hH, e73]
        generalize M * 2 ^ (s - 9) = X
        omega
      · obtain ⟨hupd, hlow, -⟩ : (hi * 2 ^ 64 + lo) * d < n + d ∧ 1 ≤ lo ∧ True := by
          rcases R.kind with k | ⟨k, -⟩ | ⟨-, k1, k2, -⟩
          · omega
          · omega
          · exact ⟨k1, k2, trivial⟩
        obtain ⟨T, hT⟩ : ∃ T, hi * 2 ^ 64 + lo = T := ⟨_, rfl⟩
        rw [hT] at hup hupd h
        have g := div_pow_add (w * T) 64
        rw [h] at g
        -- both sides are multiples of 2^128, and nearer than that
        have d1 : w * n ≤ w * (T * d) := Nat.mul_le_mul_left _ hup.le
        have d2 : w * (T * d) ≤ w * (n + d) := Nat.mul_le_mul_left _ hupd.le
        have d3 : w * (T * d) < (H * 2 ^ 64 + L + 1) * 2 ^ 64 * d := by
          calc w * (T * d) = w * T * d := by ring
            _ < (H * 2 ^ 64 + L + 1) * 2 ^ 64 * d := Nat.mul_lt_mul_of_pos_right g.2 hd
        have d4 : (H * 2 ^ 64 + L) * 2 ^ 64 * d ≤ w * (T * d) := by
          calc (H * 2 ^ 64 + L) * 2 ^ 64 * d ≤ w * T * d := Nat.mul_le_mul_right _ g.1
            _ = w * (T * d) := by ring
        have hd2 : d < 2 ^ 40 := by
          rw [hdb]
          calc 5 ^ (-q).toNat ≤ 5 ^ 17 := Nat.pow_le_pow_right (by omega) (by omega)
            _ < 2 ^ 40 := by norm_num
        have d5 : w * d ≤ 2 ^ 64 * d := Nat.mul_le_mul_right _ hw.le
        have d6 : L * (2 ^ 64 * d) ≤ 1 * (2 ^ 64 * d) := Nat.mul_le_mul_right _ hL
        have n1 : w * n = 2 ^ 128 * (w * 2 ^ b) := by rw [hn, Nat.pow_add]; ring
        have n2 : (H * 2 ^ 64 + L) * 2 ^ 64 * d = 2 ^ 128 * (H * d) + L * (2 ^ 64 * d) := by ring
        have n3 : (H * 2 ^ 64 + L + 1) * 2 ^ 64 * d = 2 ^ 128 * (H * d) + L * (2 ^ 64 * d) + 2 ^ 64 * d := by ring
        have n4 : M * 2 ^ (128 + s) * d = 2 ^ 128 * (H * d) := by rw [← hH, e128]; ring
        rw [Nat.mul_add] at d2
        rw [n1, n4]
        rw [n1] at d1 d2
        rw [n2] at d4
        rw [n3] at d3
        generalize w * 2 ^ b = X at *
        generalize H * d = Y at *
        generalize L * (2 ^ 64 * d) = Z at *
        have : X = Y := by
          clear n1 n2 n3 n4 g hn hdb R hM hM1 hM2 h
          omega
        rw [this]
    · intro hv
      have hdvd : M * 5 ^ (-q).toNat ∣ w := by
        rw [hn, hdb] at hv
        have h1 : M * 5 ^ (-q).toNat ∣ w * 2 ^ (128 + b) := by
          rw [hv]; exact ⟨2 ^ (128 + s), by ring⟩
        have hcop : Nat.Coprime (M * 5 ^ (-q).toNat) (2 ^ (128 + b)) := by
          apply Nat.Coprime.mul_left
          · apply Nat.Coprime.pow_right
            exact Nat.coprime_two_right.mpr (Nat.odd_iff.mpr hodd)
          · exact coprime_5_2 _ _
        exact hcop.dvd_of_dvd_mul_right h1
      have hle := Nat.le_of_dvd hw0 hdvd
      have hmn : q ≥ f.minExponentRoundToEven := by
        have h1 : 2 ^ (f.mantissaExplicitBits + 1) * 5 ^ (-q).toNat < 2 ^ 64 := lt_of_le_of_lt (le_trans (Nat.mul_le_mul_right _ hM1) hle) hw
        have e : (2 : Nat) ^ 64 = 2 ^ (f.mantissaExplicitBits + 1) * 2 ^ (63 - f.mantissaExplicitBits) := by
          rw [← Nat.pow_add]; congr 1; have := hok.mb2; omega
        rw [e] at h1
        have h2 : 5 ^ (-q).toNat < 2 ^ (63 - f.mantissaExplicitBits) := Nat.lt_of_mul_lt_mul_left h1
        have h4 : 5 ^ (-q).toNat < 5 ^ (1 - f.minExponentRoundToEven).toNat := by omega
        have h5 := (Nat.pow_lt_pow_iff_right (by norm_num)).mp h4
        omega
      obtain ⟨hup, -⟩ := R.up hq' (by omega)
      obtain ⟨hupd, hlow, -⟩ : (hi * 2 ^ 64 + lo) * d < n + d ∧ 1 ≤ lo ∧ True := by
        rcases R.kind with k | ⟨k, -⟩ | ⟨-, k1, k2, -⟩
        · omega
        · omega
        · exact ⟨k1, k2, trivial⟩
      rcases hc with ⟨h, hL, -⟩ | ⟨h, hL, -⟩
      · exfalso
        have h1 : hi * 2 ^ 64 * d < n := by
          have h0 : 1 * d ≤ lo * d := Nat.mul_le_mul_right _ hlow
          refine Nat.lt_of_add_lt_add_right (n := d) ?_
          calc hi * 2 ^ 64 * d + d ≤ hi * 2 ^ 64 * d + lo * d := Nat.add_le_add_left (by rw [Nat.one_mul] at h0; exact h0) _
            _ = (hi * 2 ^ 64 + lo) * d := by ring
            _ < n + d := hupd
        have h2 : w * (hi * 2 ^ 64 * d) < w * n := Nat.mul_lt_mul_of_pos_left h1 hw0
        have h3 : (H * 2 ^ 64) * (2 ^ 64 * d) < (M * 2 ^ s * 2 ^ 64) * (2 ^ 64 * d) := by
          calc (H * 2 ^ 64) * (2 ^ 64 * d) ≤ (H * 2 ^ 64 + L) * (2 ^ 64 * d) := Nat.mul_le_mul_right _ (by omega)
            _ = w * (hi * 2 ^ 64 * d) := by rw [← h]; ring
            _ < w * n := h2
            _ = M * 2 ^ (128 + s) * d := hv
            _ = (M * 2 ^ s * 2 ^ 64) * (2 ^ 64 * d) := by rw [e128]; ring
        have h4 := Nat.lt_of_mul_lt_mul_right h3
        omega
      · have g := div_pow_add (w * (hi * 2 ^ 64 + lo)) 64
        rw [h] at g
        have h1 : (H * 2 ^ 64 + L) * (2 ^ 64 * d) < (M * 2 ^ s * 2 ^ 64 + 1) * (2 ^ 64 * d) := by
          calc (H * 2 ^ 64 + L) * (2 ^ 64 * d) = (H * 2 ^ 64 + L) * 2 ^ 64 * d := by ring
            _ ≤ w * (hi * 2 ^ 64 + lo) * d := Nat.mul_le_mul_right _ g.1
            _ = w * ((hi * 2 ^ 64 + lo) * d) := by ring
            _ < w * (n + d) := Nat.mul_lt_mul_of_pos_left hupd hw0
            _ = w * n + w * d := by ring
            _ ≤ w * n + 2 ^ 64 * d := Nat.add_le_add_left (Nat.mul_le_mul_right _ hw.le) _
            _ = (M * 2 ^ s * 2 ^ 64 + 1) * (2 ^ 64 * d) := by rw [hv, e128]; ring
        have h2 := Nat.lt_of_mul_lt_mul_right h1
        exact ⟨by omega, hmn, by omega, by omega⟩

/-- With a power below -27 nothing is exactly representable. -/
theorem no_tie {q : Int} {hi lo n d : Nat} (R : Row q hi lo n d) (hq : q ≤ -28) (hq1 : -342 ≤ q) {w : Nat} (hw : w < 2 ^ 64) (hw0 : 0 < w)
    (M e : Nat) : w * n ≠ M * 2 ^ e * d := by
  intro hv
  obtain ⟨b, hn, hdb⟩ := R.neg (by omega) hq1
  rw [hn, hdb] at hv
  have h1 : 5 ^ (-q).toNat ∣ w * 2 ^ (128 + b) := by rw [hv]; exact ⟨M * 2 ^ e, by ring⟩
  have h2 := Nat.le_of_dvd hw0 ((coprime_5_2 _ _).dvd_of_dvd_mul_right h1)
  have h3 : 5 ^ 28 ≤ 5 ^ (-q).toNat := Nat.pow_le_pow_right (by omega) (by omega)
  have h4 : (2 : Nat) ^ 64 < 5 ^ 28 := by norm_num
  omega

end C4.FF
